import Verif.Halo.RadiusModel
import Verif.Cosmo.Props
import Verif.Go.Loops

/-!
# C76: overdensity radii and masses
-/

set_option autoImplicit false

namespace Verif.Halo

open Verif.Go Verif.Cosmo

/-- The five named definitions. -/
def Named (r : Radius) : Prop := 0 ≤ r ∧ r < 5

theorem named_cases {r : Radius} (h : Named r) : r = 0 ∨ r = 1 ∨ r = 2 ∨ r = 3 ∨ r = 4 := by
  have key : ∀ r : ℤ, 0 ≤ r → r < 5 → r = 0 ∨ r = 1 ∨ r = 2 ∨ r = 3 ∨ r = 4 := fun r h0 h1 => by omega
  exact key r h.1 h.2

/-- The overdensity that belongs to a definition, and whether it is measured against the critical density (or else the mean
density). -/
noncomputable def overdensity (r : Radius) : ℝ × Bool :=
  if r = 0 then (177.653, true) else if r = 1 then (200, true) else if r = 2 then (200, false)
  else if r = 3 then (500, true) else (2500, true)

/-- The density of reference, in a cosmology. -/
noncomputable def reference (r : Radius) (c : CosmologyHeader) : ℝ :=
  (overdensity r).1 * (if (overdensity r).2 then rhoCritical (c.h100 * 100) c.omegaM c.omegaL c.z
    else rhoAverage (c.h100 * 100) c.omegaM c.omegaL c.z)

/-- A cosmology in which the conversions mean something. -/
def Good (c : CosmologyHeader) : Prop := Physical (c.h100 * 100) c.omegaM c.omegaL c.z

theorem rhoOf_eq {r : Radius} (h : Named r) (c : CosmologyHeader) : rhoOf r c = reference r c := by
  rcases named_cases h with rfl | rfl | rfl | rfl | rfl <;>
    norm_num [rhoOf, reference, overdensity, rVirial, r200c, r200m, r500c, r2500c]

theorem rhoAverage_pos {c : CosmologyHeader} (hc : Good c) : 0 < rhoAverage (c.h100 * 100) c.omegaM c.omegaL c.z := by
  have p0 : Physical (c.h100 * 100) c.omegaM c.omegaL 0 := ⟨hc.h, hc.m, hc.l, by norm_num⟩
  have h1 : 0 < 1 + c.z := by linarith [hc.z]
  exact mul_pos (mul_pos (C87_critical _ _ _ _ p0).1 hc.m) (pow_pos h1 3)

theorem overdensity_pos (r : Radius) : 0 < (overdensity r).1 := by
  unfold overdensity
  split_ifs <;> norm_num

theorem reference_pos (r : Radius) {c : CosmologyHeader} (hc : Good c) : 0 < reference r c := by
  unfold reference
  refine mul_pos (overdensity_pos r) ?_
  split_ifs
  · exact (C87_critical _ _ _ _ hc).1
  · exact rhoAverage_pos hc

/-- The radius of a mass. -/
noncomputable def radiusOf (r : Radius) (c : CosmologyHeader) (m : ℝ) : ℝ :=
  (m / (rhoOf r c * 4 * Real.pi / 3)) ^ ((1 : ℝ) / 3) / (1 / (1 + c.z))

/-- The mass of a radius. -/
noncomputable def massOf (r : Radius) (c : CosmologyHeader) (x : ℝ) : ℝ :=
  rhoOf r c * 4 * Real.pi / 3 * ((x * (1 / (1 + c.z))) * (x * (1 / (1 + c.z))) * (x * (1 / (1 + c.z))))

theorem rd_getElem {α : Type} {xs : List α} {i : ℕ} (h : i < xs.length) : rd xs (i : ℤ) = some xs[i] := by
  rw [rd_some_iff]
  exact ⟨by omega, by simp⟩

theorem drop_set_succ {α : Type} (xs : List α) (k : ℕ) (v : α) : (xs.set k v).drop (k + 1) = xs.drop (k + 1) := by
  apply List.ext_getElem?
  intro i
  rw [List.getElem?_drop, List.getElem?_drop, List.getElem?_set_ne (by omega)]

theorem take_set_succ {α : Type} (xs : List α) (k : ℕ) (v : α) (h : k < xs.length) :
    (xs.set k v).take (k + 1) = xs.take k ++ [v] := by
  rw [List.take_add_one, List.getElem?_set_self h, List.take_set_of_le (le_refl _)]
  rfl

/-- A loop that converts the elements of one slice into another. -/
theorem convert_into {α β : Type} (f : α → β) (xs : List α) (out : List β) (hl : xs.length ≤ out.length) :
    forRange 0 xs.length (fun i out => do
      let m ← rd xs i
      wr out i (f m)) out = some (xs.map f ++ out.drop xs.length) := by
  obtain ⟨s, e, h1, h2, h3⟩ := forRange_nat (fun k (s : List β) => s.length = out.length ∧ s.take k = (xs.take k).map f ∧
      s.drop k = out.drop k) (lo := 0) (hi := xs.length) (Nat.zero_le _)
    (fun i out => do
      let m ← rd xs i
      wr out i (f m)) out ⟨rfl, by simp, rfl⟩ (by
    rintro k s - hk ⟨h1, h2, h3⟩
    refine ⟨s.set k (f xs[k]), bind_of (rd_getElem hk) (wr_natCast (by omega)), by rw [List.length_set, h1], ?_, ?_⟩
    · rw [take_set_succ _ _ _ (by omega), h2, List.take_add_one, List.getElem?_eq_getElem hk, List.map_append]
      rfl
    · rw [drop_set_succ, ← List.drop_drop, ← List.drop_drop, h3])
  refine e.trans ?_
  congr 1
  rw [← List.take_append_drop xs.length s, h2, h3, List.take_length]

/-- A loop that converts the elements of a slice in place. -/
theorem convert_inPlace {α : Type} (f : α → α) (xs : List α) :
    forRange 0 xs.length (fun i out => do
      let m ← rd out i
      wr out i (f m)) xs = some (xs.map f) := by
  obtain ⟨s, e, h1, h2, h3⟩ := forRange_nat (fun k (s : List α) => s.length = xs.length ∧ s.take k = (xs.take k).map f ∧
      s.drop k = xs.drop k) (lo := 0) (hi := xs.length) (Nat.zero_le _)
    (fun i out => do
      let m ← rd out i
      wr out i (f m)) xs ⟨rfl, by simp, rfl⟩ (by
    rintro k s - hk ⟨h1, h2, h3⟩
    have hv : s[k]'(by omega) = xs[k] := by
      have a : (s.drop k)[0]? = (xs.drop k)[0]? := by rw [h3]
      rw [List.getElem?_drop, List.getElem?_drop, List.getElem?_eq_getElem (by omega), List.getElem?_eq_getElem (by omega)] at a
      simpa using a
    refine ⟨s.set k (f xs[k]), bind_of (rd_getElem (by omega)) (by rw [hv]; exact wr_natCast (by omega)),
      by rw [List.length_set, h1], ?_, ?_⟩
    · rw [take_set_succ _ _ _ (by omega), h2, List.take_add_one, List.getElem?_eq_getElem hk, List.map_append]
      rfl
    · rw [drop_set_succ, ← List.drop_drop, ← List.drop_drop, h3])
  refine e.trans ?_
  congr 1
  rw [← List.take_append_drop xs.length s, h2, h3, List.take_length, List.drop_length, List.append_nil]

theorem radiusInto_eq (r : Radius) (c : CosmologyHeader) (ms out : List ℝ) (hl : ms.length ≤ out.length) :
    radiusInto r c ms out = some (ms.map (radiusOf r c) ++ out.drop ms.length) := convert_into (radiusOf r c) ms out hl

theorem radiusInPlace_eq (r : Radius) (c : CosmologyHeader) (ms : List ℝ) :
    radiusInPlace r c ms = some (ms.map (radiusOf r c)) := convert_inPlace (radiusOf r c) ms

theorem massInto_eq (r : Radius) (c : CosmologyHeader) (rs out : List ℝ) (hl : rs.length ≤ out.length) :
    massInto r c rs out = some (rs.map (massOf r c) ++ out.drop rs.length) := convert_into (massOf r c) rs out hl

theorem cube_root_cube {x : ℝ} (h : 0 ≤ x) : (x ^ ((1 : ℝ) / 3)) ^ 3 = x := by
  rw [← Real.rpow_natCast, ← Real.rpow_mul h]
  norm_num

theorem cube_cube_root {x : ℝ} (h : 0 ≤ x) : (x ^ 3) ^ ((1 : ℝ) / 3) = x := by
  rw [← Real.rpow_natCast, ← Real.rpow_mul h]
  norm_num

section
variable {r : Radius} {c : CosmologyHeader}

theorem factor_pos (hr : Named r) (hc : Good c) : 0 < rhoOf r c * 4 * Real.pi / 3 := by
  have h1 := reference_pos r hc
  rw [← rhoOf_eq hr] at h1
  have := Real.pi_pos
  positivity

theorem scale_pos (hc : Good c) : 0 < 1 / (1 + c.z) := by
  have := hc.z
  apply div_pos one_pos
  linarith

theorem mass_radius (hr : Named r) (hc : Good c) {m : ℝ} (h : 0 ≤ m) : massOf r c (radiusOf r c m) = m := by
  have hf := factor_pos hr hc
  have ha := scale_pos hc
  unfold massOf radiusOf
  set F := rhoOf r c * 4 * Real.pi / 3
  set a := 1 / (1 + c.z)
  rw [div_mul_cancel₀ _ ha.ne']
  have := cube_root_cube (div_nonneg h hf.le)
  rw [show ∀ y : ℝ, y * y * y = y ^ 3 from fun y => by ring, this]
  field_simp

theorem radius_mass (hr : Named r) (hc : Good c) {x : ℝ} (h : 0 ≤ x) : radiusOf r c (massOf r c x) = x := by
  have hf := factor_pos hr hc
  have ha := scale_pos hc
  unfold massOf radiusOf
  set F := rhoOf r c * 4 * Real.pi / 3
  set a := 1 / (1 + c.z)
  rw [mul_div_cancel_left₀ _ hf.ne', show ∀ y : ℝ, y * y * y = y ^ 3 from fun y => by ring,
    cube_cube_root (mul_nonneg h ha.le), mul_div_cancel_right₀ _ ha.ne']

theorem radiusOf_nonneg (hr : Named r) (hc : Good c) {m : ℝ} (h : 0 ≤ m) : 0 ≤ radiusOf r c m :=
  div_nonneg (Real.rpow_nonneg (div_nonneg h (factor_pos hr hc).le) _) (scale_pos hc).le

theorem massOf_nonneg (hr : Named r) (hc : Good c) {x : ℝ} (h : 0 ≤ x) : 0 ≤ massOf r c x := by
  have hf := factor_pos hr hc
  have ha := scale_pos hc
  unfold massOf
  positivity

theorem massOf_lt (hr : Named r) (hc : Good c) {x y : ℝ} (h : 0 ≤ x) (hxy : x < y) : massOf r c x < massOf r c y := by
  have hf := factor_pos hr hc
  have ha := scale_pos hc
  unfold massOf
  apply mul_lt_mul_of_pos_left _ hf
  rw [show ∀ y : ℝ, y * y * y = y ^ 3 from fun y => by ring, show ∀ y : ℝ, y * y * y = y ^ 3 from fun y => by ring]
  exact pow_lt_pow_left₀ (mul_lt_mul_of_pos_right hxy ha) (mul_nonneg h ha.le) (by norm_num)

theorem radiusOf_lt (hr : Named r) (hc : Good c) {x y : ℝ} (h : 0 ≤ x) (hxy : x < y) : radiusOf r c x < radiusOf r c y := by
  by_contra hn
  push Not at hn
  have hy : 0 ≤ y := by linarith
  rcases lt_or_eq_of_le hn with h1 | h1
  · have := massOf_lt hr hc (radiusOf_nonneg hr hc hy) h1
    rw [mass_radius hr hc h, mass_radius hr hc hy] at this
    linarith
  · have : massOf r c (radiusOf r c y) = massOf r c (radiusOf r c x) := by rw [h1]
    rw [mass_radius hr hc h, mass_radius hr hc hy] at this
    linarith

end

/-! ## C76 -/

/-- C76: the two conversions are inverse of each other on lists of any length, and converting in place gives the same. -/
theorem C76_inverse (r : Radius) (c : CosmologyHeader) (hr : Named r) (hc : Good c) (xs out out' : List ℝ)
    (hx : ∀ x ∈ xs, 0 ≤ x) (h1 : out.length = xs.length) (h2 : out'.length = xs.length) :
    (∃ ys, radiusInto r c xs out = some ys ∧ massInto r c ys out' = some xs ∧ radiusInPlace r c xs = some ys) ∧
    (∃ ys, massInto r c xs out = some ys ∧ radiusInto r c ys out' = some xs ∧ radiusInPlace r c ys = some xs) := by
  have e1 : out.drop xs.length = [] := by rw [← h1, List.drop_length]
  refine ⟨⟨xs.map (radiusOf r c), ?_, ?_, radiusInPlace_eq r c xs⟩, ⟨xs.map (massOf r c), ?_, ?_, ?_⟩⟩
  · rw [radiusInto_eq r c xs out h1.ge, e1, List.append_nil]
  · rw [massInto_eq r c _ out' (by rw [List.length_map, h2]), List.length_map, ← h2, List.drop_length, List.append_nil,
      List.map_map]
    congr 1
    conv_rhs => rw [← List.map_id xs]
    exact List.map_congr_left fun x h => mass_radius hr hc (hx x h)
  · rw [massInto_eq r c xs out h1.ge, e1, List.append_nil]
  · rw [radiusInto_eq r c _ out' (by rw [List.length_map, h2]), List.length_map, ← h2, List.drop_length, List.append_nil,
      List.map_map]
    congr 1
    conv_rhs => rw [← List.map_id xs]
    exact List.map_congr_left fun x h => radius_mass hr hc (hx x h)
  · rw [radiusInPlace_eq, List.map_map]
    congr 1
    conv_rhs => rw [← List.map_id xs]
    exact List.map_congr_left fun x h => radius_mass hr hc (hx x h)

/-- A flat cosmology at redshift 1, for the examples. -/
noncomputable def exampleCosmo : CosmologyHeader := ⟨1, 3/10, 7/10, 7/10⟩

theorem exampleCosmo_good : Good exampleCosmo :=
  ⟨by norm_num [exampleCosmo], by norm_num [exampleCosmo], by norm_num [exampleCosmo], by norm_num [exampleCosmo]⟩

example := C76_inverse r500c exampleCosmo (by constructor <;> decide) exampleCosmo_good [1, 2] [0, 0] [0, 0]
  (by intro x h; simp at h; rcases h with rfl | rfl <;> norm_num) rfl rfl

/-- C76: a bigger mass has a bigger radius and the other way round, element by element. -/
theorem C76_increasing (r : Radius) (c : CosmologyHeader) (hr : Named r) (hc : Good c) (x y : ℝ) (hx : 0 ≤ x) (hxy : x < y) :
    (∃ a b, radiusInto r c [x, y] [0, 0] = some [a, b] ∧ 0 ≤ a ∧ a < b) ∧
    (∃ a b, massInto r c [x, y] [0, 0] = some [a, b] ∧ 0 ≤ a ∧ a < b) :=
  ⟨⟨_, _, radiusInto_eq r c _ _ (le_refl _), radiusOf_nonneg hr hc hx, radiusOf_lt hr hc hx hxy⟩,
   ⟨_, _, massInto_eq r c _ _ (le_refl _), massOf_nonneg hr hc hx, massOf_lt hr hc hx hxy⟩⟩

example := C76_increasing r200m exampleCosmo (by constructor <;> decide) exampleCosmo_good 1 2 (by norm_num) (by norm_num)

/-- C76: the radius is the one of the definition: the mass inside it, over the volume of the sphere with that radius in
physical units, is the overdensity times the critical (or mean) density. -/
theorem C76_mean_density (r : Radius) (c : CosmologyHeader) (hr : Named r) (hc : Good c) (ms out : List ℝ)
    (hl : ms.length ≤ out.length) :
    ∃ rs, radiusInto r c ms out = some rs ∧ rs.length = out.length ∧
      (∀ i (hi : i < ms.length), 0 < ms[i] → ∃ x, rs[i]? = some x ∧ 0 < x ∧
        ms[i] / (4 / 3 * Real.pi * (x / (1 + c.z)) ^ 3) = reference r c) ∧
      ∀ i, ms.length ≤ i → rs[i]? = out[i]? := by
  refine ⟨_, radiusInto_eq r c ms out hl, by simp; omega, ?_, ?_⟩
  · intro i hi hm
    refine ⟨radiusOf r c ms[i], ?_, ?_, ?_⟩
    · rw [List.getElem?_append_left (by rw [List.length_map]; exact hi), List.getElem?_map, List.getElem?_eq_getElem hi]
      rfl
    · refine lt_of_le_of_lt (radiusOf_nonneg hr hc (le_refl 0)) (radiusOf_lt hr hc (le_refl 0) hm)
    · have hz : (1 + c.z) ≠ 0 := by have := hc.z; intro h; linarith
      have h1 := mass_radius hr hc hm.le
      have h2 : 0 < radiusOf r c ms[i] :=
        lt_of_le_of_lt (radiusOf_nonneg hr hc (le_refl 0)) (radiusOf_lt hr hc (le_refl 0) hm)
      rw [← rhoOf_eq hr]
      generalize radiusOf r c ms[i] = x at h1 h2
      have hpi := Real.pi_pos
      have hz' : 0 < 1 + c.z := by linarith [hc.z]
      rw [← h1, div_eq_iff (by positivity)]
      unfold massOf
      field_simp
  · intro i hi
    rw [List.getElem?_append_right (by rw [List.length_map]; exact hi), List.length_map, List.getElem?_drop]
    congr 1
    omega

example := C76_mean_density rVirial exampleCosmo (by constructor <;> decide) exampleCosmo_good [1, 2] [0, 0] (le_refl _)

/-- C76: at the same mass, the stricter definitions have the smaller radii; in a flat universe the radius against the mean
density is at least that against the critical density. -/
theorem C76_order (c : CosmologyHeader) (hc : Good c) (m : ℝ) (hm : 0 < m) :
    ∃ rv r2 r5 r25 rm : ℝ, radiusInto rVirial c [m] [0] = some [rv] ∧ radiusInto r200c c [m] [0] = some [r2] ∧
      radiusInto r500c c [m] [0] = some [r5] ∧ radiusInto r2500c c [m] [0] = some [r25] ∧
      radiusInto r200m c [m] [0] = some [rm] ∧ r25 < r5 ∧ r5 < r2 ∧ r2 < rv ∧ (c.omegaM + c.omegaL = 1 → r2 ≤ rm) := by
  refine ⟨_, _, _, _, _, radiusInto_eq _ c _ _ (le_refl _), radiusInto_eq _ c _ _ (le_refl _),
    radiusInto_eq _ c _ _ (le_refl _), radiusInto_eq _ c _ _ (le_refl _), radiusInto_eq _ c _ _ (le_refl _), ?_⟩
  have ha := scale_pos hc
  have hpi := Real.pi_pos
  have hcr : 0 < rhoCritical (c.h100 * 100) c.omegaM c.omegaL c.z := (C87_critical _ _ _ _ hc).1
  have key : ∀ p q : Radius, Named p → Named q → rhoOf q c < rhoOf p c → radiusOf p c m < radiusOf q c m := by
    intro p q hp hq hpq
    have h2 := factor_pos hq hc
    unfold radiusOf
    apply div_lt_div_of_pos_right _ ha
    apply Real.rpow_lt_rpow (div_nonneg hm.le (factor_pos hp hc).le) _ (by norm_num)
    apply div_lt_div_of_pos_left hm h2
    have := mul_lt_mul_of_pos_right hpq (show 0 < 4 * Real.pi / 3 by positivity)
    linarith
  have n0 : Named rVirial := by constructor <;> decide
  have n1 : Named r200c := by constructor <;> decide
  have n2 : Named r200m := by constructor <;> decide
  have n3 : Named r500c := by constructor <;> decide
  have n4 : Named r2500c := by constructor <;> decide
  have e0 : rhoOf rVirial c = 177653 / 1000 * rhoCritical (c.h100 * 100) c.omegaM c.omegaL c.z := by
    norm_num [rhoOf, rVirial]
  have e1 : rhoOf r200c c = 200 * rhoCritical (c.h100 * 100) c.omegaM c.omegaL c.z := by norm_num [rhoOf, rVirial, r200c]
  have e2 : rhoOf r200m c = 200 * rhoAverage (c.h100 * 100) c.omegaM c.omegaL c.z := by
    norm_num [rhoOf, rVirial, r200c, r200m]
  have e3 : rhoOf r500c c = 500 * rhoCritical (c.h100 * 100) c.omegaM c.omegaL c.z := by
    norm_num [rhoOf, rVirial, r200c, r200m, r500c]
  have e4 : rhoOf r2500c c = 2500 * rhoCritical (c.h100 * 100) c.omegaM c.omegaL c.z := by
    norm_num [rhoOf, rVirial, r200c, r200m, r500c, r2500c]
  refine ⟨key _ _ n4 n3 (by rw [e3, e4]; linarith), key _ _ n3 n1 (by rw [e3, e1]; linarith),
    key _ _ n1 n0 (by rw [e0, e1]; linarith), fun flat => ?_⟩
  have := (C87_ratio _ _ _ _ hc flat).2
  rcases lt_or_eq_of_le this with h | h
  · exact (key _ _ n1 n2 (by rw [e1, e2]; linarith)).le
  · have : rhoOf r200c c = rhoOf r200m c := by rw [e1, e2, h]
    show radiusOf r200c c m ≤ radiusOf r200m c m
    unfold radiusOf
    rw [this]

example := C76_order exampleCosmo exampleCosmo_good 1 (by norm_num)

/-- What is needed of `strings.ToLower`: it is right on ASCII. -/
def LowersAscii (lower : Char → Char) : Prop := ∀ c : Char, c.val < 128 → lower c = c.toLower

/-- C76: reading back the name of a definition gives the definition, in any mix of cases and also without the leading `R`. -/
theorem C76_names (lower : Char → Char) (hl : LowersAscii lower) (r : Radius) :
    (Named r ↔ ∃ s, radiusString r = some s) ∧
    (∀ s, radiusString r = some s → radiusFromString lower s = (r, true) ∧
      radiusFromString lower (String.ofList (s.toList.map lower)) = (r, true) ∧
      radiusFromString lower (String.ofList s.toList.tail) = (r, true)) := by
  have hasc : ∀ s : List Char, (∀ c ∈ s, c.val < 128) → s.map lower = s.map Char.toLower :=
    fun s h => List.map_congr_left fun c hc => hl c (h c hc)
  constructor
  · constructor
    · intro h
      rcases named_cases h with rfl | rfl | rfl | rfl | rfl <;> exact ⟨_, rfl⟩
    · rintro ⟨s, hs⟩
      unfold radiusString at hs
      unfold Named
      split_ifs at hs with h1 h2 h3 h4 h5
      all_goals first | subst h1 | subst h2 | subst h3 | subst h4 | subst h5
      all_goals decide
  · intro s hs
    have hcase : (r = r200m ∧ s = "R200m") ∨ (r = r200c ∧ s = "R200c") ∨ (r = r500c ∧ s = "R500c") ∨
        (r = r2500c ∧ s = "R2500c") ∨ (r = rVirial ∧ s = "RVir") := by
      unfold radiusString at hs
      split_ifs at hs with h1 h2 h3 h4 h5 <;> simp_all
    unfold radiusFromString
    rcases hcase with ⟨rfl, rfl⟩ | ⟨rfl, rfl⟩ | ⟨rfl, rfl⟩ | ⟨rfl, rfl⟩ | ⟨rfl, rfl⟩ <;>
      (simp only [String.toList_ofList]
       rw [hasc _ (by decide), hasc _ (by decide), hasc _ (by decide)]
       decide)

/-- The ASCII part of `strings.ToLower` meets the hypothesis. -/
example : radiusFromString Char.toLower "r2500C" = (r2500c, true) := by decide
example := C76_names Char.toLower (fun _ _ => rfl) r500c

/-- C76: unknown names are reported as such. -/
theorem C76_unknown (lower : Char → Char) (s : String) :
    (radiusFromString lower s).2 = true ↔ String.ofList (s.toList.map lower) ∈
      ["200m", "r200m", "vir", "rvir", "200c", "r200c", "500c", "r500c", "2500c", "r2500c"] := by
  unfold radiusFromString
  dsimp only
  simp only [List.mem_cons, List.not_mem_nil, or_false]
  generalize String.ofList (s.toList.map lower) = t
  by_cases h1 : t = "200m" ∨ t = "r200m"
  · rw [if_pos h1]; rcases h1 with rfl | rfl <;> simp
  by_cases h2 : t = "vir" ∨ t = "rvir"
  · rw [if_neg h1, if_pos h2]; rcases h2 with rfl | rfl <;> simp
  by_cases h3 : t = "200c" ∨ t = "r200c"
  · rw [if_neg h1, if_neg h2, if_pos h3]; rcases h3 with rfl | rfl <;> simp
  by_cases h4 : t = "500c" ∨ t = "r500c"
  · rw [if_neg h1, if_neg h2, if_neg h3, if_pos h4]; rcases h4 with rfl | rfl <;> simp
  by_cases h5 : t = "2500c" ∨ t = "r2500c"
  · rw [if_neg h1, if_neg h2, if_neg h3, if_neg h4, if_pos h5]; rcases h5 with rfl | rfl <;> simp
  · rw [if_neg h1, if_neg h2, if_neg h3, if_neg h4, if_neg h5]
    rw [not_or] at h1 h2 h3 h4 h5
    simp [h1, h2, h3, h4, h5]

example : (radiusFromString Char.toLower "R180m").2 = false := by decide

/-- C76: the column read for a definition is the one with its quantity, and it is taken for a mass exactly if it is one. -/
theorem C76_columns (r : Radius) (hr : Named r) :
    ∃ col isMass name, rockstarColumn r = some col ∧ rockstarMass r = some isMass ∧ valNames[col.toNat]? = some name ∧
      0 ≤ col ∧ (r, isMass, name) ∈ [(rVirial, false, "RVir"), (r200c, true, "M200c"), (r200m, true, "M200b"),
        (r500c, true, "M500c"), (r2500c, true, "M2500c")] := by
  rcases named_cases hr with rfl | rfl | rfl | rfl | rfl <;> exact ⟨_, _, _, rfl, rfl, rfl, by decide, by decide⟩

example := C76_columns r200m (by constructor <;> decide)

end Verif.Halo
