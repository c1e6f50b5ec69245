import Verif.Io.ConfigModel
import Mathlib.Tactic.Linarith
import Mathlib.Tactic.Ring
import Mathlib.Tactic.FieldSimp
import Mathlib.Tactic.IntervalCases

/-!
# C68: cell bounds of sheets; C69, C70: boxes and balls; C71: predicates; C99: names of quantities
-/

set_option autoImplicit false

namespace Verif.Io

/-! ## C68 -/

/-- C68: every position in the bounding box of the sheet lies in a cell of the bounds, and the bounds are as small as
possible: the first and the last cell along each axis contain a corner of the box. -/
theorem C68_covers (totalWidth : ℚ) (origin width : Fin 3 → ℚ) (cells : ℤ) (hW : 0 < totalWidth) (hc : 0 < cells)
    (j : Fin 3) :
    let b := cellBounds totalWidth origin width cells
    let cw := totalWidth / cells
    (∀ x, origin j ≤ x → x ≤ origin j + width j → ∀ k : ℤ, k * cw ≤ x → x < (k + 1) * cw →
      b.1 j ≤ k ∧ k < b.1 j + b.2 j) ∧
    (b.1 j * cw ≤ origin j ∧ origin j < (b.1 j + 1) * cw) ∧
    (((b.1 j + b.2 j - 1 : ℤ) : ℚ) * cw ≤ origin j + width j ∧ origin j + width j < (b.1 j + b.2 j : ℤ) * cw) := by
  intro b cw
  have hcw : 0 < cw := div_pos hW (by exact_mod_cast hc)
  have hb1 : b.1 j = ⌊origin j / cw⌋ := rfl
  have hb2 : b.1 j + b.2 j = 1 + ⌊(origin j + width j) / cw⌋ := by
    show ⌊origin j / cw⌋ + (1 + ⌊(origin j + width j) / cw⌋ - ⌊origin j / cw⌋) = _
    ring
  refine ⟨fun x h1 h2 k h3 h4 => ?_, ⟨?_, ?_⟩, ?_, ?_⟩
  · have hk : ⌊x / cw⌋ = k := by
      rw [Int.floor_eq_iff]
      constructor
      · rwa [le_div_iff₀ hcw]
      · rwa [div_lt_iff₀ hcw]
    rw [hb2, hb1, ← hk]
    have m1 := Int.floor_le_floor (div_le_div_of_nonneg_right h1 hcw.le)
    have m2 := Int.floor_le_floor (div_le_div_of_nonneg_right h2 hcw.le)
    omega
  · rw [hb1, ← le_div_iff₀ hcw]
    exact Int.floor_le _
  · rw [hb1, ← div_lt_iff₀ hcw]
    exact Int.lt_floor_add_one _
  · rw [hb2, ← le_div_iff₀ hcw]
    have := Int.floor_le ((origin j + width j) / cw)
    push_cast
    linarith
  · rw [hb2, ← div_lt_iff₀ hcw]
    have := Int.lt_floor_add_one ((origin j + width j) / cw)
    push_cast
    linarith

example : (cellBounds 100 ![5, 95, 0] ![10, 10, 0] 10).1 1 = 9 ∧ (cellBounds 100 ![5, 95, 0] ![10, 10, 0] 10).2 1 = 2 := by
  decide +kernel

/-! ## C69 -/

/-- The ways of writing a projection axis: nothing or one letter in either case, with spaces around it; `r` is the
normalised form. -/
def AxisName (s r : List Char) : Prop :=
  ∃ a b core, s = List.replicate a ' ' ++ core ++ List.replicate b ' ' ∧
    ((core = [] ∧ r = []) ∨ ((core = ['x'] ∨ core = ['X']) ∧ r = ['X']) ∨ ((core = ['y'] ∨ core = ['Y']) ∧ r = ['Y']) ∨
      ((core = ['z'] ∨ core = ['Z']) ∧ r = ['Z']))

/-- Leading spaces. -/
theorem dropWhile_space (s : List Char) :
    ∃ a, s = List.replicate a ' ' ++ s.dropWhile (· = ' ') := by
  induction s with
  | nil => exact ⟨0, rfl⟩
  | cons c s ih =>
    by_cases h : c = ' '
    · obtain ⟨a, ha⟩ := ih
      refine ⟨a + 1, ?_⟩
      subst h
      rw [List.dropWhile_cons_of_pos (by simp), List.replicate_succ, List.cons_append, ← ha]
    · exact ⟨0, by rw [List.dropWhile_cons_of_neg (by simpa using h)]; rfl⟩

theorem trim_split (s : List Char) :
    ∃ a b, s = List.replicate a ' ' ++ trim s ++ List.replicate b ' ' := by
  obtain ⟨a, ha⟩ := dropWhile_space s
  obtain ⟨b, hb⟩ := dropWhile_space (s.dropWhile (· = ' ')).reverse
  refine ⟨a, b, ?_⟩
  have : s.dropWhile (· = ' ') = trim s ++ List.replicate b ' ' := by
    have := congrArg List.reverse hb
    rw [List.reverse_reverse, List.reverse_append, List.reverse_replicate] at this
    exact this
  rw [List.append_assoc, ← this, ← ha]

theorem dropWhile_replicate (a : ℕ) (s : List Char) :
    (List.replicate a ' ' ++ s).dropWhile (· = ' ') = s.dropWhile (· = ' ') := by
  induction a with
  | zero => rfl
  | succ a ih => rw [List.replicate_succ, List.cons_append, List.dropWhile_cons_of_pos (by simp), ih]

theorem trim_pad (a b : ℕ) (core : List Char) (h : core = [] ∨ ∃ c, c ≠ ' ' ∧ core = [c]) :
    trim (List.replicate a ' ' ++ core ++ List.replicate b ' ') = core := by
  unfold trim
  rw [List.append_assoc, dropWhile_replicate]
  rcases h with rfl | ⟨c, hc, rfl⟩
  · rw [List.nil_append]
    have : (List.replicate b ' ').dropWhile (· = ' ') = [] := by
      have := dropWhile_replicate b []
      rw [List.append_nil] at this
      rw [this]
      rfl
    rw [this]
    rfl
  · rw [List.singleton_append, List.dropWhile_cons_of_neg (by simpa using hc), List.reverse_cons, List.reverse_replicate,
      dropWhile_replicate, List.dropWhile_cons_of_neg (by simpa using hc)]
    rfl

theorem toUpper_eq {c : Char} {d : Char} (hd : d = 'X' ∨ d = 'Y' ∨ d = 'Z' ∨ d = ' ') :
    c.toUpper = d ↔ c = d ∨ (d ≠ ' ' ∧ c = d.toLower) := by
  constructor
  · intro h
    unfold Char.toUpper at h
    split at h
    · rename_i hc
      right
      have hv := congrArg Char.val h
      simp only at hv
      have hc' : c.val = d.val + 32 := by
        rw [← hv, UInt32.add_assoc, show ('A'.val - 'a'.val + 32 : UInt32) = 0 from by decide, UInt32.add_zero]
      rcases hd with rfl | rfl | rfl | rfl
      · exact ⟨by decide, Char.ext (by rw [hc']; decide)⟩
      · exact ⟨by decide, Char.ext (by rw [hc']; decide)⟩
      · exact ⟨by decide, Char.ext (by rw [hc']; decide)⟩
      · exfalso
        rw [hc'] at hc
        exact absurd hc.1 (by decide)
    · exact .inl h
  · rintro (rfl | ⟨h, rfl⟩)
    · rcases hd with rfl | rfl | rfl | rfl <;> decide
    · rcases hd with rfl | rfl | rfl | rfl
      · decide
      · decide
      · decide
      · exact absurd rfl h

theorem axis_iff (s r : List Char) : AxisName s r ↔
    trim (toUpper s) = r ∧ (r = [] ∨ r = ['X'] ∨ r = ['Y'] ∨ r = ['Z']) := by
  constructor
  · rintro ⟨a, b, core, rfl, h⟩
    have hup : toUpper (List.replicate a ' ' ++ core ++ List.replicate b ' ') =
        List.replicate a ' ' ++ toUpper core ++ List.replicate b ' ' := by
      unfold toUpper
      rw [List.map_append, List.map_append, List.map_replicate, List.map_replicate]
      rfl
    rw [hup]
    rcases h with ⟨rfl, rfl⟩ | ⟨rfl | rfl, rfl⟩ | ⟨rfl | rfl, rfl⟩ | ⟨rfl | rfl, rfl⟩
    · exact ⟨trim_pad _ _ _ (.inl rfl), .inl rfl⟩
    · exact ⟨trim_pad _ _ ['X'] (.inr ⟨'X', by decide, rfl⟩), by simp⟩
    · exact ⟨trim_pad _ _ ['X'] (.inr ⟨'X', by decide, rfl⟩), by simp⟩
    · exact ⟨trim_pad _ _ ['Y'] (.inr ⟨'Y', by decide, rfl⟩), by simp⟩
    · exact ⟨trim_pad _ _ ['Y'] (.inr ⟨'Y', by decide, rfl⟩), by simp⟩
    · exact ⟨trim_pad _ _ ['Z'] (.inr ⟨'Z', by decide, rfl⟩), by simp⟩
    · exact ⟨trim_pad _ _ ['Z'] (.inr ⟨'Z', by decide, rfl⟩), by simp⟩
  · rintro ⟨ht, hr⟩
    obtain ⟨a, b, e⟩ := trim_split (toUpper s)
    rw [ht] at e
    have hl := congrArg List.length e
    unfold toUpper at e hl
    rw [List.length_map] at hl
    obtain ⟨s12, s3, rfl, e12, e3⟩ := List.map_eq_append_iff.mp e
    obtain ⟨s1, s2, rfl, e1, e2⟩ := List.map_eq_append_iff.mp e12
    have hsp : ∀ (n : ℕ) (l : List Char), l.map Char.toUpper = List.replicate n ' ' → l = List.replicate n ' ' := by
      intro n l h
      rw [List.eq_replicate_iff] at h ⊢
      rw [List.length_map] at h
      refine ⟨h.1, fun c hc => ?_⟩
      have := h.2 _ (List.mem_map_of_mem hc)
      rcases (toUpper_eq (d := ' ') (by simp)).mp this with h' | ⟨h', _⟩
      · exact h'
      · exact absurd rfl h'
    have h1 := hsp _ _ e1
    have h3 := hsp _ _ e3
    refine ⟨a, b, s2, by rw [← h1, ← h3], ?_⟩
    have hone : ∀ d : Char, s2.map Char.toUpper = [d] → (d = 'X' ∨ d = 'Y' ∨ d = 'Z' ∨ d = ' ') → d ≠ ' ' →
        (s2 = [d.toLower] ∨ s2 = [d]) := by
      intro d h hd hds
      obtain ⟨c, rfl, hc⟩ := List.map_eq_singleton_iff.mp h
      rcases (toUpper_eq hd).mp hc with h' | ⟨_, h'⟩
      · right; rw [h']
      · left; rw [h']
    rcases hr with rfl | rfl | rfl | rfl
    · left
      exact ⟨by simpa using e2, rfl⟩
    · right; left
      exact ⟨hone 'X' e2 (by simp) (by decide), rfl⟩
    · right; right; left
      exact ⟨hone 'Y' e2 (by simp) (by decide), rfl⟩
    · right; right; right
      exact ⟨hone 'Z' e2 (by simp) (by decide), rfl⟩

/-- What a box has to satisfy: positive widths and the lower corner inside the periodic volume. -/
def BoxOk (box : BoxConfig) (totalWidth : ℚ) : Prop :=
  0 < box.xWidth ∧ 0 < box.yWidth ∧ 0 < box.zWidth ∧
  (0 ≤ box.x ∧ box.x < totalWidth) ∧ (0 ≤ box.y ∧ box.y < totalWidth) ∧ (0 ≤ box.z ∧ box.z < totalWidth)

theorem checkInit_eq (box : BoxConfig) (name : List Char) (totalWidth : ℚ) (h : BoxOk box totalWidth) :
    box.checkInit name totalWidth =
      if trim (toUpper box.projectionAxis) = [] ∨ trim (toUpper box.projectionAxis) = ['X'] ∨
          trim (toUpper box.projectionAxis) = ['Y'] ∨ trim (toUpper box.projectionAxis) = ['Z']
      then ({ box with projectionAxis := trim (toUpper box.projectionAxis), name := name }, true)
      else ({ box with projectionAxis := trim (toUpper box.projectionAxis) }, false) := by
  obtain ⟨h1, h2, h3, ⟨h4, h4'⟩, ⟨h5, h5'⟩, ⟨h6, h6'⟩⟩ := h
  unfold BoxConfig.checkInit
  rw [if_neg (by linarith), if_neg (by linarith), if_neg (by linarith),
    if_neg (by rw [not_or]; constructor <;> linarith), if_neg (by rw [not_or]; constructor <;> linarith),
    if_neg (by rw [not_or]; constructor <;> linarith)]
  dsimp only
  by_cases hc : trim (toUpper box.projectionAxis) = [] ∨ trim (toUpper box.projectionAxis) = ['X'] ∨
      trim (toUpper box.projectionAxis) = ['Y'] ∨ trim (toUpper box.projectionAxis) = ['Z']
  · rw [if_pos hc, if_neg]
    tauto
  · rw [if_neg hc, if_pos]
    tauto

theorem checkInit_bad (box : BoxConfig) (name : List Char) (totalWidth : ℚ) (h : ¬ BoxOk box totalWidth) :
    (box.checkInit name totalWidth).2 = false := by
  unfold BoxConfig.checkInit
  split_ifs with h1 h2 h3 h4 h5 h6 <;> try rfl
  exfalso
  apply h
  rw [not_or] at h4 h5 h6
  exact ⟨by linarith, by linarith, by linarith, ⟨by linarith [h4.2], by linarith [h4.1]⟩,
    ⟨by linarith [h5.2], by linarith [h5.1]⟩, ⟨by linarith [h6.2], by linarith [h6.1]⟩⟩

/-- C69 except for the upper bound on the widths: `CheckInit` accepts a box exactly if its widths are positive, its
lower corner is inside the periodic volume and its projection axis is one of the legal spellings. What it accepts it
normalises: the axis becomes empty or one of X, Y, Z, the name is set, and nothing else changes.
Missing: widths beyond the periodic volume are not refused (`C69_width_counterexample`). -/
theorem C69_checkInit_partial (box : BoxConfig) (name : List Char) (totalWidth : ℚ) :
    ((box.checkInit name totalWidth).2 = true ↔
      BoxOk box totalWidth ∧ ∃ r, AxisName box.projectionAxis r) ∧
    ∀ r, BoxOk box totalWidth → AxisName box.projectionAxis r →
      (box.checkInit name totalWidth).1 = { box with projectionAxis := r, name := name } := by
  constructor
  · constructor
    · intro h
      by_cases hb : BoxOk box totalWidth
      · refine ⟨hb, ?_⟩
        rw [checkInit_eq box name totalWidth hb] at h
        split_ifs at h with hc
        · exact ⟨_, (axis_iff _ _).mpr ⟨rfl, hc⟩⟩
      · rw [checkInit_bad box name totalWidth hb] at h
        exact absurd h (by simp)
    · rintro ⟨hb, r, hr⟩
      obtain ⟨h1, h2⟩ := (axis_iff _ _).mp hr
      rw [checkInit_eq box name totalWidth hb, if_pos (by rw [h1]; exact h2)]
  · intro r hb hr
    obtain ⟨h1, h2⟩ := (axis_iff _ _).mp hr
    rw [checkInit_eq box name totalWidth hb, if_pos (by rw [h1]; exact h2), h1]

/-- C69: accepting is stable: checking an accepted box again accepts it and changes nothing more. -/
theorem C69_stable (box : BoxConfig) (name : List Char) (totalWidth : ℚ)
    (h : (box.checkInit name totalWidth).2 = true) :
    (box.checkInit name totalWidth).1.checkInit name totalWidth = box.checkInit name totalWidth := by
  obtain ⟨hb, r, hr⟩ := (C69_checkInit_partial box name totalWidth).1.mp h
  have e := (C69_checkInit_partial box name totalWidth).2 r hb hr
  have hr' : AxisName r r := by
    obtain ⟨_, h2⟩ := (axis_iff _ _).mp hr
    refine ⟨0, 0, r, by simp, ?_⟩
    tauto
  have hb' : BoxOk (box.checkInit name totalWidth).1 totalWidth := by rw [e]; exact hb
  have e' := (C69_checkInit_partial (box.checkInit name totalWidth).1 name totalWidth).2 r hb' (by rw [e]; exact hr')
  have a' := (C69_checkInit_partial (box.checkInit name totalWidth).1 name totalWidth).1.mpr ⟨hb', r, by rw [e]; exact hr'⟩
  apply Prod.ext
  · rw [e', e]
  · rw [a', h]

example : (BoxConfig.checkInit ⟨1, 2, 3, 4, 5, 6, " y ".toList, []⟩ "b".toList 10) =
    (⟨1, 2, 3, 4, 5, 6, ['Y'], ['b']⟩, true) := by decide +kernel

/-- C69 fails for the widths: a box of any width is accepted. -/
theorem C69_width_counterexample (totalWidth w : ℚ) (hW : 0 < totalWidth) (hw : 0 < w) :
    ((⟨0, 0, 0, w, w, w, [], []⟩ : BoxConfig).checkInit [] totalWidth).2 = true :=
  (C69_checkInit_partial _ _ _).1.mpr ⟨⟨hw, hw, hw, ⟨le_refl _, hW⟩, ⟨le_refl _, hW⟩, ⟨le_refl _, hW⟩⟩,
    [], 0, 0, [], rfl, .inl ⟨rfl, rfl⟩⟩

/-! ## C70 -/

/-- C70: the box contains every point within the radius of the centre, up to a period, along each axis; for every
configuration at all. -/
theorem C70_contains (ball : BallConfig) (totalWidth : ℚ) (px py pz : ℚ)
    (hx : |px - ball.x| ≤ ball.radius * ball.radiusMultiplier)
    (hy : |py - ball.y| ≤ ball.radius * ball.radiusMultiplier)
    (hz : |pz - ball.z| ≤ ball.radius * ball.radiusMultiplier) :
    let b := ball.box totalWidth
    (∃ k : ℤ, b.x ≤ px + k * totalWidth ∧ px + k * totalWidth ≤ b.x + b.xWidth) ∧
    (∃ k : ℤ, b.y ≤ py + k * totalWidth ∧ py + k * totalWidth ≤ b.y + b.yWidth) ∧
    (∃ k : ℤ, b.z ≤ pz + k * totalWidth ∧ pz + k * totalWidth ≤ b.z + b.zWidth) := by
  have key : ∀ c p rad : ℚ, |p - c| ≤ rad → ∃ k : ℤ, ballCorner c rad totalWidth ≤ p + k * totalWidth ∧
      p + k * totalWidth ≤ ballCorner c rad totalWidth + 2 * rad := by
    intro c p rad h
    rw [abs_le] at h
    unfold ballCorner
    split_ifs
    · exact ⟨0, by push_cast; linarith, by push_cast; linarith⟩
    · exact ⟨1, by push_cast; linarith, by push_cast; linarith⟩
  exact ⟨key _ _ _ hx, key _ _ _ hy, key _ _ _ hz⟩

/-- C70: the box of an accepted ball passes the check of boxes, provided the effective radius is positive and at most
the box width, and is not equal to one of the coordinates of the centre.
Missing: negative radii are accepted and a centre at exactly the radius gives an illegal corner (the two
counterexamples below); larger radii. -/
theorem C70_valid_partial (ball : BallConfig) (name : List Char) (totalWidth : ℚ)
    (hacc : (ball.checkInit name totalWidth).2 = true)
    (hpos : 0 < (ball.checkInit name totalWidth).1.radius * (ball.checkInit name totalWidth).1.radiusMultiplier)
    (hle : (ball.checkInit name totalWidth).1.radius * (ball.checkInit name totalWidth).1.radiusMultiplier ≤ totalWidth)
    (hx : ball.x ≠ (ball.checkInit name totalWidth).1.radius * (ball.checkInit name totalWidth).1.radiusMultiplier)
    (hy : ball.y ≠ (ball.checkInit name totalWidth).1.radius * (ball.checkInit name totalWidth).1.radiusMultiplier)
    (hz : ball.z ≠ (ball.checkInit name totalWidth).1.radius * (ball.checkInit name totalWidth).1.radiusMultiplier) :
    (((ball.checkInit name totalWidth).1.box totalWidth).checkInit name totalWidth).2 = true := by
  have hcent : (ball.checkInit name totalWidth).1.x = ball.x ∧ (ball.checkInit name totalWidth).1.y = ball.y ∧
      (ball.checkInit name totalWidth).1.z = ball.z ∧
      (0 ≤ ball.x ∧ ball.x < totalWidth) ∧ (0 ≤ ball.y ∧ ball.y < totalWidth) ∧ (0 ≤ ball.z ∧ ball.z < totalWidth) := by
    revert hacc
    unfold BallConfig.checkInit
    dsimp only
    split_ifs with h1 h2 h3 h4 <;> intro hacc
    · exact absurd hacc (by simp)
    · exact absurd hacc (by simp)
    · exact absurd hacc (by simp)
    · exact absurd hacc (by simp)
    · rw [not_or] at h2 h3 h4
      exact ⟨rfl, rfl, rfl, ⟨by linarith [h2.2], by linarith [h2.1]⟩, ⟨by linarith [h3.2], by linarith [h3.1]⟩,
        ⟨by linarith [h4.2], by linarith [h4.1]⟩⟩
    · exact absurd hacc (by simp)
    · rw [not_or] at h2 h3 h4
      exact ⟨rfl, rfl, rfl, ⟨by linarith [h2.2], by linarith [h2.1]⟩, ⟨by linarith [h3.2], by linarith [h3.1]⟩,
        ⟨by linarith [h4.2], by linarith [h4.1]⟩⟩
  obtain ⟨ex, ey, ez, ⟨hx0, hx1⟩, ⟨hy0, hy1⟩, ⟨hz0, hz1⟩⟩ := hcent
  set bc := (ball.checkInit name totalWidth).1
  have key : ∀ c : ℚ, 0 ≤ c → c < totalWidth → c ≠ bc.radius * bc.radiusMultiplier →
      0 ≤ ballCorner c (bc.radius * bc.radiusMultiplier) totalWidth ∧
      ballCorner c (bc.radius * bc.radiusMultiplier) totalWidth < totalWidth := by
    intro c h0 h1 hne
    unfold ballCorner
    split_ifs with h
    · exact ⟨by linarith, by linarith⟩
    · have : c < bc.radius * bc.radiusMultiplier := lt_of_le_of_ne (not_lt.mp h) hne
      exact ⟨by linarith, by linarith⟩
  refine (C69_checkInit_partial _ _ _).1.mpr ⟨⟨?_, ?_, ?_, ?_, ?_, ?_⟩, [], 0, 0, [], rfl, .inl ⟨rfl, rfl⟩⟩
  · show 0 < 2 * (bc.radius * bc.radiusMultiplier); linarith
  · show 0 < 2 * (bc.radius * bc.radiusMultiplier); linarith
  · show 0 < 2 * (bc.radius * bc.radiusMultiplier); linarith
  · show 0 ≤ ballCorner bc.x _ _ ∧ ballCorner bc.x _ _ < _
    rw [ex]
    exact key _ hx0 hx1 hx
  · show 0 ≤ ballCorner bc.y _ _ ∧ ballCorner bc.y _ _ < _
    rw [ey]
    exact key _ hy0 hy1 hy
  · show 0 ≤ ballCorner bc.z _ _ ∧ ballCorner bc.z _ _ < _
    rw [ez]
    exact key _ hz0 hz1 hz

example : (((BallConfig.checkInit ⟨1, 5, 9, 2, 0, []⟩ "h".toList 10).1.box 10).checkInit "h".toList 10) =
    (⟨9, 3, 7, 4, 4, 4, [], ['h']⟩, true) := by decide +kernel

/-- C70 fails for centres at exactly the radius: the corner is put at the box width, which the check of boxes refuses. -/
theorem C70_corner_counterexample (r totalWidth : ℚ) (h0 : 0 < r) (h1 : r < totalWidth) :
    let ball : BallConfig := ⟨r, r, r, r, 1, []⟩
    (ball.checkInit [] totalWidth).2 = true ∧ (ball.box totalWidth).x = totalWidth ∧
      ((ball.box totalWidth).checkInit [] totalWidth).2 = false := by
  intro ball
  have hbx : (ball.box totalWidth).x = totalWidth := by
    show ballCorner r (r * 1) totalWidth = totalWidth
    unfold ballCorner
    rw [if_neg (by rw [mul_one]; exact lt_irrefl _)]
    ring
  refine ⟨?_, hbx, ?_⟩
  · unfold BallConfig.checkInit
    rw [if_neg h0.ne', if_neg (by rw [not_or]; constructor <;> simp only [ball] <;> linarith),
      if_neg (by rw [not_or]; constructor <;> simp only [ball] <;> linarith),
      if_neg (by rw [not_or]; constructor <;> simp only [ball] <;> linarith)]
    dsimp only
    rw [if_neg (by simp [ball]), if_neg (by simp only [ball]; norm_num)]
  · refine checkInit_bad _ _ _ ?_
    rintro ⟨_, _, _, ⟨_, h⟩, _⟩
    rw [hbx] at h
    exact lt_irrefl _ h

/-- C70 fails for negative radii: they are accepted, and the box has negative widths. -/
theorem C70_negative_counterexample (r totalWidth : ℚ) (h0 : r < 0) (hW : 0 < totalWidth) :
    let ball : BallConfig := ⟨0, 0, 0, r, 1, []⟩
    (ball.checkInit [] totalWidth).2 = true ∧ (ball.box totalWidth).xWidth < 0 := by
  intro ball
  constructor
  · unfold BallConfig.checkInit
    rw [if_neg h0.ne, if_neg (by rw [not_or]; constructor <;> simp only [ball] <;> linarith),
      if_neg (by rw [not_or]; constructor <;> simp only [ball] <;> linarith),
      if_neg (by rw [not_or]; constructor <;> simp only [ball] <;> linarith)]
    dsimp only
    rw [if_neg (by simp [ball]), if_neg (by simp only [ball]; norm_num)]
  · show 2 * (r * 1) < 0
    linarith

/-! ## C71 -/

theorem halve_iff (s : ℕ) (h : 0 < s) : halve s = true ↔ ∃ k, s = 2 ^ k := by
  induction s using Nat.strong_induction_on with
  | _ s ih =>
    unfold halve
    rw [if_neg h.ne']
    by_cases h1 : s = 1
    · rw [if_pos h1]
      simp only [true_iff]
      exact ⟨0, by rw [h1]; rfl⟩
    rw [if_neg h1]
    by_cases h2 : s % 2 = 1
    · rw [if_pos h2]
      simp only [Bool.false_eq_true, false_iff]
      rintro ⟨k, rfl⟩
      cases k with
      | zero => exact h1 rfl
      | succ k => rw [pow_succ, Nat.mul_mod_left] at h2; exact absurd h2 (by norm_num)
    rw [if_neg h2, ih (s / 2) (by omega) (by omega)]
    constructor
    · rintro ⟨k, hk⟩
      exact ⟨k + 1, by rw [pow_succ, ← hk]; omega⟩
    · rintro ⟨k, hk⟩
      cases k with
      | zero => exact absurd hk h1
      | succ k => exact ⟨k, by rw [hk, pow_succ]; omega⟩

/-- C71 for histograms: exactly the powers of two are accepted as subsampling lengths. -/
theorem C71_subsample_hist (s : ℤ) : histValidSubsampleLength s = true ↔ ∃ k : ℕ, s = 2 ^ k := by
  unfold histValidSubsampleLength
  by_cases h : s ≤ 0
  · rw [if_pos h]
    simp only [Bool.false_eq_true, false_iff]
    rintro ⟨k, rfl⟩
    have : (0 : ℤ) < 2 ^ k := by positivity
    omega
  · rw [if_neg h, halve_iff _ (by omega)]
    constructor
    · rintro ⟨k, hk⟩
      refine ⟨k, ?_⟩
      have : (s.toNat : ℤ) = 2 ^ k := by exact_mod_cast hk
      omega
    · rintro ⟨k, hk⟩
      refine ⟨k, ?_⟩
      have : (s.toNat : ℤ) = ((2 ^ k : ℕ) : ℤ) := by push_cast; omega
      exact_mod_cast this

example : histValidSubsampleLength 64 = true ∧ histValidSubsampleLength 48 = false := by
  rw [C71_subsample_hist, ← Bool.not_eq_true, C71_subsample_hist]
  refine ⟨⟨6, by norm_num⟩, ?_⟩
  rintro ⟨k, hk⟩
  have h1 : (2 : ℤ) ^ 5 < 2 ^ k := by rw [← hk]; norm_num
  have h2 : (2 : ℤ) ^ k < 2 ^ 6 := by rw [← hk]; norm_num
  rw [pow_lt_pow_iff_right₀ (by norm_num)] at h1 h2
  omega

/-- C71 fails for renderings: every positive subsampling length is accepted. -/
theorem C71_subsample_render_counterexample (s : ℤ) : renderValidSubsampleLength s = true ↔ 0 < s := by
  unfold renderValidSubsampleLength
  exact decide_eq_true_iff

/-- C71 fails for the quantity of a rendering: the predicate panics for every name. -/
theorem C71_quantity_render_counterexample (lower : String → String) (s : String) :
    renderValidQuantity lower s = none := rfl

/-- C71 for histograms: the only quantity is the density. -/
theorem C71_quantity_hist_partial (s : String) :
    histValidQuantity s = true ↔ quantityFromString s = some 0 := by
  unfold histValidQuantity quantityFromString
  rw [decide_eq_true_iff]
  constructor
  · rintro rfl
    rfl
  · intro h
    split_ifs at h with h1
    · exact h1
    all_goals exact absurd (Option.some.inj h) (by norm_num)

example : histValidQuantity "Density" = true ∧ histValidQuantity "Velocity" = false := by decide +kernel

/-! ## C99 -/

/-- C99: `QuantityFromString` knows exactly five names, with five different values; printing is its inverse for every
quantity except the density.
Missing: the density cannot be printed (`C99_density_counterexample`). -/
theorem C99_names_partial (s : String) (q : ℤ) :
    (quantityFromString s = some q → 0 ≤ q ∧ q < endQuantity ∧ (requiresVelocity q).isSome) ∧
    (quantityString q = some s ↔ quantityFromString s = some q ∧ q ≠ 0) := by
  constructor
  · intro h
    unfold quantityFromString at h
    split_ifs at h <;> (rw [Option.some.injEq] at h; subst h; decide)
  · constructor
    · intro h
      unfold quantityString at h
      split_ifs at h with h0 h1 h2 h3 h4 h5
      · rw [not_or] at h0; omega
      all_goals (rw [Option.some.injEq] at h; subst h; subst_vars; decide)
    · rintro ⟨h, hq⟩
      unfold quantityFromString at h
      split_ifs at h with h1 h2 h3 h4 h5
      · rw [Option.some.injEq] at h; exact absurd h.symm hq
      all_goals (rw [Option.some.injEq] at h; subst h; subst_vars; rfl)

example : quantityString 3 = some "VelocityDivergence" ∧ quantityFromString "VelocityDivergence" = some 3 := by
  decide

/-- C99 fails for the density: `String` panics on it. -/
theorem C99_density_counterexample : quantityFromString "Density" = some 0 ∧ quantityString 0 = none := by decide

/-- C99: the velocity is needed exactly for the three velocity quantities. -/
theorem C99_requiresVelocity (s : String) (q : ℤ) (h : quantityFromString s = some q) :
    requiresVelocity q = some true ↔ s = "Velocity" ∨ s = "VelocityDivergence" ∨ s = "VelocityCurl" := by
  unfold quantityFromString at h
  split_ifs at h <;> (rw [Option.some.injEq] at h; subst h; subst_vars; decide)

end Verif.Io
