import Verif.Rand.Model

/-! Helper lemmas for the Sobol sequence. -/

namespace Verif.Rand

open Verif.Go

/-- The direction numbers, computed. -/
def sobolIv : List (BitVec 32) := (sobolTable).getD []

theorem sobolTable_eq : sobolTable = some sobolIv := by
  have h : sobolTable.isSome = true := by decide +kernel
  unfold sobolIv
  cases e : sobolTable with
  | none => rw [e] at h; cases h
  | some v => rfl

/-- Shape of the direction numbers: entry `j` of dimension `k` is below `2^30`, has bit `29 - j` set and
no lower bit. -/
def goodEntry (j : Nat) (v : BitVec 32) : Bool :=
  decide (v.toNat < 2 ^ 30) && v.toNat.testBit (29 - j) && decide (v.toNat % 2 ^ (29 - j) = 0)

theorem sobolIv_good : sobolIv.length = 180 ∧ ∀ k < 6, ∀ j < 30,
    goodEntry j (sobolIv.getD (j * 6 + k) 0) = true := by
  decide +kernel

theorem sobolIv_entry (k j : Nat) (hk : k < 6) (hj : j < 30) :
    ∃ v, sobolIv[j * 6 + k]? = some v ∧ v.toNat < 2 ^ 30 ∧ v.toNat.testBit (29 - j) = true ∧
      v.toNat % 2 ^ (29 - j) = 0 := by
  obtain ⟨hl, h⟩ := sobolIv_good
  have hlt : j * 6 + k < sobolIv.length := by omega
  refine ⟨sobolIv[j * 6 + k], List.getElem?_eq_getElem hlt, ?_⟩
  have := h k hk j hj
  rw [List.getD_eq_getElem?_getD, List.getElem?_eq_getElem hlt, Option.getD_some] at this
  unfold goodEntry at this
  simp only [Bool.and_eq_true, decide_eq_true_eq] at this
  exact ⟨this.1.1, this.1.2, this.2⟩

theorem newSobol_eq : newSobol = some
    { seqNum := 0, ix := List.replicate 6 0, iv := sobolIv, isInit := true } := by
  unfold newSobol Sobol.init
  rw [if_neg (by simp [Sobol.zero]), sobolTable_eq]
  rfl

/-! ### lowest zero bit -/

theorem and_shl_eq_zero (s : BitVec 32) (z : Nat) (hz : z < 32) :
    s &&& (1#32 <<< z) = 0#32 ↔ s.toNat.testBit z = false := by
  constructor
  · intro h
    have := congrArg (fun b => BitVec.getLsbD b z) h
    simp only [BitVec.getLsbD_and, BitVec.getLsbD_shiftLeft, BitVec.getLsbD_zero] at this
    simpa [hz, BitVec.getLsbD] using this
  · intro h
    apply BitVec.eq_of_getLsbD_eq
    intro i hi
    simp only [BitVec.getLsbD_and, BitVec.getLsbD_shiftLeft, BitVec.getLsbD_zero]
    by_cases e : i = z
    · subst e
      simp [BitVec.getLsbD, h]
    · by_cases hlt : i < z
      · simp [hlt]
      · have : i - z ≠ 0 := by omega
        simp [BitVec.getLsbD_one, this]

theorem lowestZero_spec (s : BitVec 32) : ∀ (n z : Nat), z + n ≤ 32 →
    (∀ i < z, s.toNat.testBit i = true) →
    let r := lowestZero s n z
    z ≤ r ∧ r ≤ z + n ∧ (∀ i < r, s.toNat.testBit i = true) ∧
      (r < z + n → s.toNat.testBit r = false) := by
  intro n
  induction n with
  | zero => intro z _ h; exact ⟨le_refl _, le_refl _, h, fun h' => by simp [lowestZero] at h'⟩
  | succ n ih =>
    intro z hz h
    simp only [lowestZero]
    by_cases c : s &&& (1#32 <<< z) = 0#32
    · rw [if_pos c]
      exact ⟨le_refl _, by omega, h, fun _ => (and_shl_eq_zero s z (by omega)).mp c⟩
    · rw [if_neg c]
      have hb : s.toNat.testBit z = true := by
        cases e : s.toNat.testBit z
        · exact absurd ((and_shl_eq_zero s z (by omega)).mpr e) c
        · rfl
      obtain ⟨a1, a2, a3, a4⟩ := ih (z + 1) (by omega) (by
        intro i hi
        rcases Nat.lt_or_ge i z with h' | h'
        · exact h i h'
        · have : i = z := by omega
          subst this; exact hb)
      exact ⟨by omega, by omega, a3, fun h' => a4 (by omega)⟩

/-- All low bits one means the successor is divisible by the power of two. -/
theorem all_ones_iff (n : Nat) : ∀ k, (∀ i < k, n.testBit i = true) ↔ 2 ^ k ∣ n + 1 := by
  intro k
  have h1 : (∀ i < k, n.testBit i = true) ↔ n % 2 ^ k = 2 ^ k - 1 := by
    constructor
    · intro h
      apply Nat.eq_of_testBit_eq
      intro i
      rw [Nat.testBit_mod_two_pow, Nat.testBit_two_pow_sub_one]
      by_cases hi : i < k
      · simp [hi, h i hi]
      · simp [hi]
    · intro h i hi
      have := congrArg (fun m => m.testBit i) h
      simp only [Nat.testBit_mod_two_pow, Nat.testBit_two_pow_sub_one] at this
      simpa [hi] using this
  rw [h1]
  have hp : 0 < 2 ^ k := Nat.two_pow_pos k
  constructor
  · intro h
    refine ⟨n / 2 ^ k + 1, ?_⟩
    have := Nat.div_add_mod n (2 ^ k)
    rw [h] at this
    rw [Nat.mul_add, Nat.mul_one]
    omega
  · rintro ⟨q, hq⟩
    have hq0 : 0 < q := by
      rcases Nat.eq_zero_or_pos q with h | h
      · subst h; simp at hq
      · exact h
    obtain ⟨p, rfl⟩ : ∃ p, q = p + 1 := ⟨q - 1, by omega⟩
    rw [Nat.mul_add, Nat.mul_one] at hq
    have : n = (2 ^ k - 1) + 2 ^ k * p := by omega
    rw [this, Nat.add_mul_mod_self_left, Nat.mod_eq_of_lt (by omega)]

/-- The index used by the `n`-th call (`seqNum = n` after the increment). -/
theorem lowestZero_dvd (s : BitVec 32) (h : s.toNat + 1 < 2 ^ 30) :
    lowestZero s MaxBit 0 < 30 ∧ 2 ^ (lowestZero s MaxBit 0) ∣ s.toNat + 1 ∧
      ¬ 2 ^ (lowestZero s MaxBit 0 + 1) ∣ s.toNat + 1 := by
  obtain ⟨_, a2, a3, a4⟩ := lowestZero_spec s 30 0 (by omega) (by omega)
  change _ ≤ _ at a2
  have hlt : lowestZero s 30 0 < 30 := by
    rcases Nat.lt_or_ge (lowestZero s 30 0) 30 with h' | h'
    · exact h'
    · exfalso
      have e : lowestZero s 30 0 = 30 := by omega
      rw [e] at a3
      have := (all_ones_iff s.toNat 30).mp a3
      have := Nat.le_of_dvd (by omega) this
      omega
  refine ⟨hlt, (all_ones_iff _ _).mp a3, ?_⟩
  intro hd
  have := (all_ones_iff s.toNat _).mpr hd (lowestZero s 30 0) (Nat.lt_succ_self _)
  rw [a4 (by omega)] at this
  cases this

theorem lowestZero_full (s : BitVec 32) (h : s.toNat + 1 = 2 ^ 30) : lowestZero s MaxBit 0 = 30 := by
  obtain ⟨_, a2, a3, a4⟩ := lowestZero_spec s 30 0 (by omega) (by omega)
  change _ ≤ _ at a2
  show lowestZero s 30 0 = 30
  rcases Nat.lt_or_ge (lowestZero s 30 0) 30 with h' | h'
  · exfalso
    have h30 : 2 ^ 30 ∣ s.toNat + 1 := by rw [h]
    have := (all_ones_iff s.toNat 30).mpr h30 _ h'
    rw [a4 (by omega)] at this
    cases this
  · omega

/-! ### one call -/

/-- Invariant of a sequence: the table is the computed one, six integer coordinates below `2^30`. -/
structure Sobol.Ok (s : Sobol) : Prop where
  iv : s.iv = sobolIv
  init : s.isInit = true
  len : s.ix.length = 6
  small : ∀ (k : Nat) (v : BitVec 32), s.ix[k]? = some v → v.toNat < 2 ^ 30

theorem fac_eq (x : ℚ) : x * (1 / 2 ^ MaxBit) = x / 2 ^ 30 := by
  unfold MaxBit; ring

/-- Effect of a call in terms of the integer coordinates. -/
theorem Sobol.nextAt_spec (s : Sobol) (hs : s.Ok) (dim : Nat) (hd : dim ≤ 6)
    (hn : s.seqNum.toNat + 2 < 2 ^ 30) :
    ∃ s' vs, s.nextAt dim = some (s', vs) ∧ s'.Ok ∧ s'.seqNum.toNat = s.seqNum.toNat + 1 ∧
      vs.length = dim ∧
      (∀ k < 6, ∀ a, s.ix[k]? = some a → ∃ b c, s'.ix[k]? = some b ∧
        sobolIv[lowestZero s'.seqNum MaxBit 0 * 6 + k]? = some c ∧
        (k < dim → b = a ^^^ c ∧ vs[k]? = some ((b.toNat : ℚ) / 2 ^ 30)) ∧
        (dim ≤ k → b = a)) := by
  obtain ⟨h1, h2, h3, h4⟩ := hs
  have hsn : (s.seqNum + 1).toNat = s.seqNum.toNat + 1 := by
    have h1 : (1 : BitVec 32).toNat = 1 := rfl
    rw [BitVec.toNat_add, h1]; omega
  obtain ⟨z1, z2, z3⟩ := lowestZero_dvd (s.seqNum + 1) (by omega)
  generalize hz : lowestZero (s.seqNum + 1) MaxBit 0 = z at *
  obtain ⟨⟨ix, tg⟩, e, i1, i2, i3⟩ := forRange_spec
    (fun j (st : List (BitVec 32) × List ℚ) => st.1.length = 6 ∧ st.2.length = dim ∧
      ∀ k < 6, ∀ a, s.ix[k]? = some a → ∃ b c, st.1[k]? = some b ∧
        sobolIv[z * 6 + k]? = some c ∧
        ((k : Int) < j → b = a ^^^ c ∧ st.2[k]? = some ((b.toNat : ℚ) / 2 ^ 30)) ∧
        (j ≤ (k : Int) → b = a))
    (lo := 0) (hi := (dim : Int)) (by omega)
    (fun k st => do
        let (ix, target) := st
        let a ← rd ix k
        let b ← rd s.iv (((z : Int) * (MaxDim : Int)) + k)
        let ix ← wr ix k (a ^^^ b)
        let v ← rd ix k
        let target ← wr target k ((v.toNat : ℚ) * (1 / 2 ^ MaxBit))
        some (ix, target)) (s.ix, List.replicate dim 0)
    (by
      refine ⟨h3, by simp, ?_⟩
      intro k hk a ha
      obtain ⟨c, hc, _⟩ := sobolIv_entry k z hk z1
      exact ⟨a, c, ha, hc, fun h => by omega, fun _ => rfl⟩)
    (by
      rintro j ⟨ix, tg⟩ hj1 hj2 ⟨l1, l2, l3⟩
      obtain ⟨m, rfl⟩ := Int.eq_ofNat_of_zero_le hj1
      simp only at l1 l2 l3 ⊢
      have hm : m < ix.length := by omega
      have hm2 : m < tg.length := by omega
      obtain ⟨c, hc, _⟩ := sobolIv_entry m z (by omega) z1
      have hrd : rd s.iv (((z : Int) * (MaxDim : Int)) + (m : Int)) = some c := by
        have : ((z : Int) * (MaxDim : Int)) + (m : Int) = ((z * 6 + m : Nat) : Int) := by
          show (z : Int) * ((6 : Nat) : Int) + m = _
          push_cast; ring
        rw [this, rd_natCast, h1, hc]
      simp only [rd_of_lt hm, hrd, bind, Option.bind_some, wr_natCast hm]
      have hrd2 : rd (ix.set m (ix[m] ^^^ c)) (m : Int) = some (ix[m] ^^^ c) := by
        rw [rd_natCast, List.getElem?_set_self hm]
      simp only [hrd2, Option.bind_some, wr_natCast hm2]
      refine ⟨_, rfl, by simpa using l1, by simpa using l2, ?_⟩
      intro k hk a ha
      obtain ⟨b, c', hb, hc', q1, q2⟩ := l3 k hk a ha
      by_cases hkm : k = m
      · subst hkm
        rw [hc] at hc'
        cases hc'
        have hb' : ix[k] = b := by
          rw [List.getElem?_eq_getElem hm] at hb; simpa using hb
        have hba : b = a := q2 (le_refl _)
        refine ⟨ix[k] ^^^ c, c, List.getElem?_set_self hm, hc, ?_, ?_⟩
        · intro _
          refine ⟨by rw [hb', hba], ?_⟩
          show (tg.set k _)[k]? = _
          rw [List.getElem?_set_self hm2, fac_eq]
        · intro h; omega
      · refine ⟨b, c', ?_, hc', ?_, ?_⟩
        · show (ix.set m _)[k]? = _
          rw [List.getElem?_set_ne (by omega)]; exact hb
        · intro h
          obtain ⟨w1, w2⟩ := q1 (by omega)
          refine ⟨w1, ?_⟩
          show (tg.set m _)[k]? = _
          rw [List.getElem?_set_ne (by omega)]; exact w2
        · intro h; exact q2 (by omega))
  simp only at i1 i2 i3
  refine ⟨{ s with seqNum := s.seqNum + 1, ix := ix }, tg, ?_, ?_, hsn, i2, ?_⟩
  · unfold Sobol.nextAt
    rw [if_neg (by show ¬ dim > 6; omega), if_neg (by show ¬ _ ≥ 2 ^ 30; omega)]
    simp only [hz, bind] at e ⊢
    rw [e]
    rfl
  · refine ⟨h1, h2, i1, ?_⟩
    intro k v hv
    simp only at hv
    have hk : k < 6 := by
      have := (List.getElem?_eq_some_iff.mp hv).1; omega
    obtain ⟨b, c, hb, hc, q1, q2⟩ := i3 k hk (s.ix[k]'(by omega)) (List.getElem?_eq_getElem _)
    rw [hb] at hv; cases hv
    have ha := h4 k _ (List.getElem?_eq_getElem (by omega))
    obtain ⟨c', hc', hc2, _⟩ := sobolIv_entry k z hk z1
    rw [hc] at hc'; cases hc'
    rcases Nat.lt_or_ge k dim with h | h
    · rw [(q1 (by omega)).1, BitVec.toNat_xor]
      exact Nat.xor_lt_two_pow ha hc2
    · rw [q2 (by omega)]; exact ha
  · intro k hk a ha
    obtain ⟨b, c, hb, hc, q1, q2⟩ := i3 k hk a ha
    simp only [hz]
    exact ⟨b, c, hb, hc, fun h => q1 (by omega), fun h => q2 (by omega)⟩

/-! ### stratification -/

/-- In an interval without multiples of `2^m`, the largest power of two dividing an element divides
exactly one element. -/
theorem unique_multiple (A B m : Nat) (hAB : A < B) (hm : ∀ T, A < T → T ≤ B → ¬ 2 ^ m ∣ T) :
    ∃ k T, k < m ∧ A < T ∧ T ≤ B ∧ 2 ^ k ∣ T ∧ ¬ 2 ^ (k + 1) ∣ T ∧
      ∀ T', A < T' → T' ≤ B → T' ≠ T → ¬ 2 ^ k ∣ T' := by
  classical
  let P : Nat → Prop := fun k => ∃ T, A < T ∧ T ≤ B ∧ 2 ^ k ∣ T
  have h0 : P 0 := ⟨B, hAB, le_refl _, by simp⟩
  have hex : ∃ k, ¬ P k := ⟨m, by rintro ⟨T, h1, h2, h3⟩; exact hm T h1 h2 h3⟩
  -- the first failing exponent
  have hf := Nat.find_spec hex
  have hmin : ∀ j, j < Nat.find hex → P j := fun j hj => not_not.mp (Nat.find_min hex hj)
  have hpos : 0 < Nat.find hex := by
    rcases Nat.eq_zero_or_pos (Nat.find hex) with h | h
    · rw [h] at hf; exact absurd h0 hf
    · exact h
  have hle : Nat.find hex ≤ m := Nat.find_le (by rintro ⟨T, h1, h2, h3⟩; exact hm T h1 h2 h3)
  obtain ⟨k, hk⟩ : ∃ k, Nat.find hex = k + 1 := ⟨Nat.find hex - 1, by omega⟩
  rw [hk] at hf hle
  obtain ⟨T, t1, t2, t3⟩ := hmin k (by omega)
  refine ⟨k, T, by omega, t1, t2, t3, fun h => hf ⟨T, t1, t2, h⟩, ?_⟩
  intro T' u1 u2 hne hd
  -- two different multiples of 2^k, one after the other
  have key : ∀ X Y, A < X → Y ≤ B → X < Y → 2 ^ k ∣ X → 2 ^ k ∣ Y → False := by
    rintro X Y x1 y2 hxy ⟨p, rfl⟩ ⟨q, rfl⟩
    have hpq : p < q := by
      rcases Nat.lt_or_ge p q with h | h
      · exact h
      · exact absurd (Nat.mul_le_mul_left (2 ^ k) h) (by omega)
    have hstep : 2 ^ k * (p + 1) ≤ 2 ^ k * q := Nat.mul_le_mul_left _ hpq
    have hlt : 2 ^ k * p < 2 ^ k * (p + 1) := Nat.mul_lt_mul_of_pos_left (by omega) (Nat.two_pow_pos k)
    rcases Nat.even_or_odd p with h | h
    · obtain ⟨r, hr⟩ := h
      exact hf ⟨2 ^ k * p, x1, by omega, ⟨r, by rw [pow_succ, hr]; ring⟩⟩
    · obtain ⟨r, hr⟩ := h
      exact hf ⟨2 ^ k * (p + 1), by omega, by omega, ⟨r + 1, by rw [pow_succ, hr]; ring⟩⟩
  rcases Nat.lt_or_ge T' T with h | h
  · exact key T' T u1 t2 h hd t3
  · exact key T T' t1 u2 (by omega) t3 hd

/-- The integer coordinate after `A` calls and after `B` calls differ in one of their top `m` bits, if no
call number in between is `-1` modulo `2^m`. -/
theorem coordinates_differ (u z v : Nat → Nat) (A B m : Nat) (hAB : A < B) (hm30 : m ≤ 30)
    (hz1 : ∀ n, A < n → n ≤ B → 2 ^ z n ∣ n + 1)
    (hz2 : ∀ n, A < n → n ≤ B → ¬ 2 ^ (z n + 1) ∣ n + 1)
    (hv1 : ∀ j < 30, (v j).testBit (29 - j) = true) (hv2 : ∀ j < 30, v j % 2 ^ (29 - j) = 0)
    (hu : ∀ n, A ≤ n → n < B → u (n + 1) = u n ^^^ v (z (n + 1)))
    (hm : ∀ n, A < n → n ≤ B → ¬ 2 ^ m ∣ n + 1) :
    u A / 2 ^ (30 - m) ≠ u B / 2 ^ (30 - m) := by
  obtain ⟨k, T, k1, t1, t2, t3, t4, t5⟩ := unique_multiple (A + 1) (B + 1) m (by omega) (by
    intro T h1 h2 h3
    obtain ⟨n, rfl⟩ : ∃ n, T = n + 1 := ⟨T - 1, by omega⟩
    exact hm n (by omega) (by omega) h3)
  have step : ∀ C, A ≤ C → C ≤ B →
      (u C).testBit (29 - k) = ((u A).testBit (29 - k) ^^ decide (T ≤ C + 1)) := by
    intro C hC
    induction C, hC using Nat.le_induction with
    | base =>
      intro _
      have e : decide (T ≤ A + 1) = false := decide_eq_false (by omega)
      rw [e, Bool.xor_false]
    | succ C hC ih =>
      intro hB
      rw [hu C hC (by omega), Nat.testBit_xor, ih (by omega)]
      by_cases c : T = C + 2
      · have hz : z (C + 1) = k := by
          have a1 := hz1 (C + 1) (by omega) hB
          have a2 := hz2 (C + 1) (by omega) hB
          rw [c] at t3 t4
          rcases Nat.lt_trichotomy (z (C + 1)) k with h | h | h
          · exact absurd (dvd_trans (pow_dvd_pow 2 (by omega)) t3) a2
          · exact h
          · exact absurd (dvd_trans (pow_dvd_pow 2 (by omega)) a1) t4
        rw [hz, hv1 k (by omega)]
        have e1 : decide (T ≤ C + 1) = false := by simp; omega
        have e2 : decide (T ≤ C + 1 + 1) = true := by simp; omega
        rw [e1, e2]; simp
      · have hz : z (C + 1) < k := by
          have a1 := hz1 (C + 1) (by omega) hB
          have a5 := t5 (C + 1 + 1) (by omega) (by omega) (by omega)
          rcases Nat.lt_or_ge (z (C + 1)) k with h | h
          · exact h
          · exact absurd (dvd_trans (pow_dvd_pow 2 h) a1) a5
        have hb : (v (z (C + 1))).testBit (29 - k) = false := by
          have := hv2 (z (C + 1)) (by omega)
          have h2 := Nat.testBit_mod_two_pow (v (z (C + 1))) (29 - z (C + 1)) (29 - k)
          rw [this] at h2
          simp only [Nat.zero_testBit] at h2
          have h3 : 29 - k < 29 - z (C + 1) := by omega
          simpa [h3] using h2.symm
        rw [hb]
        have e : decide (T ≤ C + 1 + 1) = decide (T ≤ C + 1) := by
          rw [decide_eq_decide]; omega
        rw [e]; simp
  intro heq
  have h := step B (by omega) (le_refl _)
  have e : decide (T ≤ B + 1) = true := by simp; omega
  rw [e] at h
  have g : ∀ x : Nat, (x / 2 ^ (30 - m)).testBit (m - 1 - k) = x.testBit (29 - k) := by
    intro x
    rw [Nat.testBit_div_two_pow]
    congr 1; omega
  rw [← g, ← g, heq] at h
  cases h' : (u B / 2 ^ (30 - m)).testBit (m - 1 - k) <;> rw [h'] at h <;> simp at h

/-! ### histories of calls -/

/-- A history of `NextAt` calls with the given numbers of dimensions. -/
def sobolRun : List Nat → Sobol → Option (Sobol × List (List ℚ))
  | [], s => some (s, [])
  | d :: ds, s => do
    let (s, p) ← s.nextAt d
    let (s, ps) ← sobolRun ds s
    some (s, p :: ps)

theorem sobolRun_ok : ∀ (dims : List Nat) (s : Sobol), s.Ok → (∀ d ∈ dims, d ≤ 6) →
    s.seqNum.toNat + dims.length + 1 < 2 ^ 30 →
    ∃ s' ps, sobolRun dims s = some (s', ps) ∧ s'.Ok ∧
      s'.seqNum.toNat = s.seqNum.toNat + dims.length ∧
      List.Forall₂ (fun d (p : List ℚ) => p.length = d ∧ ∀ c ∈ p, 0 ≤ c ∧ c < 1) dims ps := by
  intro dims
  induction dims with
  | nil => intro s h _ _; exact ⟨s, [], rfl, h, rfl, .nil⟩
  | cons d ds ih =>
    intro s h hd hn
    simp only [List.length_cons] at hn
    obtain ⟨s1, p, e1, ok1, sn1, l1, q1⟩ := s.nextAt_spec h d (hd d (by simp)) (by omega)
    obtain ⟨s2, ps, e2, ok2, sn2, f2⟩ := ih s1 ok1 (fun x hx => hd x (by simp [hx])) (by omega)
    refine ⟨s2, p :: ps, ?_, ok2, by simp only [List.length_cons]; omega, .cons ⟨l1, ?_⟩ f2⟩
    · simp [sobolRun, e1, e2]
    · intro c hc
      obtain ⟨k, hk⟩ := List.getElem?_of_mem hc
      have hkd : k < d := by rw [← l1]; exact (List.getElem?_eq_some_iff.mp hk).1
      have hk6 : k < 6 := by have := hd d (by simp); omega
      obtain ⟨b, c', hb, _, r1, _⟩ := q1 k hk6 _ (List.getElem?_eq_getElem (by rw [h.len]; exact hk6))
      rw [(r1 hkd).2] at hk
      cases hk
      have hbs := ok1.small k b hb
      constructor
      · exact div_nonneg (Nat.cast_nonneg _) (by norm_num)
      · rw [div_lt_one (by norm_num)]
        exact_mod_cast hbs

/-- Direction number `j` of dimension `k`, as a natural number. -/
def dirNum (k j : Nat) : Nat := (sobolIv.getD (j * 6 + k) 0).toNat

theorem dirNum_eq {k j : Nat} {c : BitVec 32} (h : sobolIv[j * 6 + k]? = some c) :
    dirNum k j = c.toNat := by
  unfold dirNum
  rw [List.getD_eq_getElem?_getD, h]; rfl

/-- Index of the direction number used by call number `n`. -/
def callBit (n : Nat) : Nat := lowestZero (BitVec.ofNat 32 n) MaxBit 0

theorem callBit_spec (n : Nat) (h : n + 1 < 2 ^ 30) :
    callBit n < 30 ∧ 2 ^ (callBit n) ∣ n + 1 ∧ ¬ 2 ^ (callBit n + 1) ∣ n + 1 := by
  have e : (BitVec.ofNat 32 n).toNat = n := by
    rw [BitVec.toNat_ofNat]; omega
  have := lowestZero_dvd (BitVec.ofNat 32 n) (by rw [e]; exact h)
  rw [e] at this
  exact this

theorem sobolRun_coord (k : Nat) (hk : k < 6) : ∀ (dims : List Nat) (s : Sobol) (x : BitVec 32),
    s.Ok → s.ix[k]? = some x → (∀ d ∈ dims, k < d ∧ d ≤ 6) →
    s.seqNum.toNat + dims.length + 1 < 2 ^ 30 →
    ∃ s' ps, sobolRun dims s = some (s', ps) ∧ ∃ u : Nat → Nat, u 0 = x.toNat ∧
      (∀ i < dims.length, u (i + 1) = u i ^^^ dirNum k (callBit (s.seqNum.toNat + i + 1))) ∧
      (∀ i ≤ dims.length, u i < 2 ^ 30) ∧
      (∀ i < dims.length, ∃ p, ps[i]? = some p ∧ p[k]? = some ((u (i + 1) : ℚ) / 2 ^ 30)) := by
  intro dims
  induction dims with
  | nil =>
    intro s x h hx _ _
    refine ⟨s, [], rfl, fun _ => x.toNat, rfl, by simp, ?_, by simp⟩
    intro i _; exact h.small k x hx
  | cons d ds ih =>
    intro s x h hx hd hn
    simp only [List.length_cons] at hn
    obtain ⟨hd1, hd2⟩ := hd d (by simp)
    obtain ⟨s1, p, e1, ok1, sn1, l1, q1⟩ := s.nextAt_spec h d hd2 (by omega)
    obtain ⟨b, c, hb, hc, r1, _⟩ := q1 k hk x hx
    obtain ⟨s2, ps, e2, u, u0, u1, u2, u3⟩ := ih s1 b ok1 hb (fun y hy => hd y (by simp [hy]))
      (by omega)
    have hs1 : BitVec.ofNat 32 (s.seqNum.toNat + 1) = s1.seqNum := by
      apply BitVec.eq_of_toNat_eq
      rw [BitVec.toNat_ofNat, sn1]; omega
    refine ⟨s2, p :: ps, ?_, fun i => match i with | 0 => x.toNat | i + 1 => u i, rfl, ?_, ?_, ?_⟩
    · simp [sobolRun, e1, e2]
    · intro i hi
      cases i with
      | zero =>
        simp only [Nat.add_zero]
        rw [u0, (r1 hd1).1, BitVec.toNat_xor, callBit, hs1, dirNum_eq hc]
      | succ i =>
        simp only
        have e : s.seqNum.toNat + 1 + i + 1 = s.seqNum.toNat + (i + 1) + 1 := by omega
        rw [u1 i (by simp at hi; omega), sn1, e]
    · intro i hi
      cases i with
      | zero => exact h.small k x hx
      | succ i => exact u2 i (by simp at hi; omega)
    · intro i hi
      cases i with
      | zero =>
        refine ⟨p, rfl, ?_⟩
        simp only
        rw [u0]; exact (r1 hd1).2
      | succ i =>
        obtain ⟨p', hp', hp2⟩ := u3 i (by simp at hi; omega)
        exact ⟨p', by simpa using hp', hp2⟩

theorem dyadic_aux (U q m r : Nat) :
    ((q : ℚ) / 2 ^ m ≤ (U : ℚ) / 2 ^ (m + r) ∧ (U : ℚ) / 2 ^ (m + r) < ((q : ℚ) + 1) / 2 ^ m) ↔
      U / 2 ^ r = q := by
  have h1 : (0 : ℚ) < 2 ^ m := by positivity
  have h2 : (0 : ℚ) < 2 ^ r := by positivity
  have h2n : 0 < 2 ^ r := Nat.two_pow_pos _
  rw [pow_add, ← div_div, div_right_comm, div_le_div_iff_of_pos_right h1,
    div_lt_div_iff_of_pos_right h1, le_div_iff₀ h2, div_lt_iff₀ h2]
  have e1 : ((q : ℚ) * 2 ^ r ≤ U) ↔ q * 2 ^ r ≤ U := by
    rw [← Nat.cast_le (α := ℚ)]; push_cast; rfl
  have e2 : ((U : ℚ) < (q + 1) * 2 ^ r) ↔ U < (q + 1) * 2 ^ r := by
    rw [← Nat.cast_lt (α := ℚ)]; push_cast; rfl
  rw [e1, e2, Nat.div_eq_iff h2n, Nat.add_mul, Nat.one_mul]
  omega

theorem dyadic_cell (U m q : Nat) (hm : m ≤ 30) :
    ((q : ℚ) / 2 ^ m ≤ (U : ℚ) / 2 ^ 30 ∧ (U : ℚ) / 2 ^ 30 < ((q : ℚ) + 1) / 2 ^ m) ↔
      U / 2 ^ (30 - m) = q := by
  have := dyadic_aux U q m (30 - m)
  rw [Nat.add_sub_cancel' hm] at this
  exact this

end Verif.Rand
