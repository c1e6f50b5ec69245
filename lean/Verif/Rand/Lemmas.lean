import Verif.Rand.Model

/-! Helper lemmas for the Xorshift and Tausworthe generators. -/

namespace Verif.Rand

open Verif.Go

/-! ### Xorshift -/

theorem xor_shr_eq_zero (t : BitVec 32) (h : t ^^^ (t >>> 8) = 0#32) : t = 0#32 := by
  rw [BitVec.xor_eq_zero_iff] at h
  apply BitVec.eq_of_toNat_eq
  have h2 := congrArg BitVec.toNat h
  rw [BitVec.toNat_ushiftRight, Nat.shiftRight_eq_div_pow] at h2
  simp only [BitVec.toNat_ofNat]
  omega

theorem xor_shl_eq_zero (t : BitVec 32) (h : t ^^^ (t <<< 11) = 0#32) : t = 0#32 := by
  rw [BitVec.xor_eq_zero_iff] at h
  apply BitVec.eq_of_toNat_eq
  have h2 := congrArg BitVec.toNat h
  rw [BitVec.toNat_shiftLeft, Nat.shiftLeft_eq] at h2
  have := t.isLt
  simp only [BitVec.toNat_ofNat]
  omega

/-- The all-zero state. -/
def Xor.Zero (g : Xor) : Prop := g.x = 0#32 ∧ g.y = 0#32 ∧ g.z = 0#32 ∧ g.w = 0#32

instance (g : Xor) : Decidable g.Zero := by unfold Xor.Zero; infer_instance

theorem Xor.step_zero {g : Xor} (h : g.step.Zero) : g.Zero := by
  obtain ⟨h1, h2, h3, h4⟩ := h
  simp only [Xor.step] at h1 h2 h3 h4
  rw [h3] at h4
  simp only [BitVec.zero_xor] at h4
  have e : (0#32) >>> 19 = 0#32 := by decide
  rw [e, BitVec.zero_xor] at h4
  have := xor_shl_eq_zero _ (xor_shr_eq_zero _ h4)
  exact ⟨this, h1, h2, h3⟩

theorem Xor.value_eq_one (g : Xor) : g.value = 1 ↔ g.w = 0#32 := by
  unfold Xor.value
  have hw := g.w.isLt
  have hn : (4294967295#32 - g.w).toNat = 4294967295 - g.w.toNat := by
    rw [BitVec.toNat_sub]; simp only [BitVec.toNat_ofNat]; omega
  rw [hn, div_eq_one_iff_eq (by norm_num)]
  constructor
  · intro h
    have h' : (4294967295 - g.w.toNat : Nat) = 4294967295 := by exact_mod_cast h
    apply BitVec.eq_of_toNat_eq
    simp only [BitVec.toNat_ofNat]; omega
  · intro h; rw [h]; norm_num

theorem Xor.value_range (g : Xor) : 0 ≤ g.value ∧ g.value ≤ 1 := by
  unfold Xor.value
  have hn : (4294967295#32 - g.w).toNat ≤ 4294967295 := by
    have := (4294967295#32 - g.w).isLt; omega
  constructor
  · exact div_nonneg (Nat.cast_nonneg _) (by norm_num)
  · rw [div_le_one (by norm_num)]; exact_mod_cast hn

/-- Four updates with `w = 0` each mean the original state was all zero. -/
theorem Xor.four_zero {g : Xor} (h1 : g.step.w = 0#32) (h2 : g.step.step.w = 0#32)
    (h3 : g.step.step.step.w = 0#32) (h4 : g.step.step.step.step.w = 0#32) : g.Zero := by
  have : g.step.step.step.step.Zero := ⟨h1, h2, h3, h4⟩
  exact Xor.step_zero (Xor.step_zero (Xor.step_zero (Xor.step_zero this)))

/-- On a non-zero state four updates are enough to find a usable value. -/
theorem Xor.next_isSome {g : Xor} (h : ¬ g.Zero) :
    ∃ g' v, g.next = some (g', v) ∧ ¬ g'.Zero ∧ 0 ≤ v ∧ v < 1 := by
  have key : ∀ g' : Xor, ¬ g'.Zero → g'.value ≠ 1 → 0 ≤ g'.value ∧ g'.value < 1 := by
    intro g' _ h1
    have := Xor.value_range g'
    exact ⟨this.1, lt_of_le_of_ne this.2 h1⟩
  have n1 : ¬ g.step.Zero := fun h' => h (Xor.step_zero h')
  have n2 : ¬ g.step.step.Zero := fun h' => n1 (Xor.step_zero h')
  have n3 : ¬ g.step.step.step.Zero := fun h' => n2 (Xor.step_zero h')
  have n4 : ¬ g.step.step.step.step.Zero := fun h' => n3 (Xor.step_zero h')
  unfold Xor.next
  simp only [Xor.nextFuel]
  by_cases c1 : g.step.value = 1
  · rw [if_pos c1]
    by_cases c2 : g.step.step.value = 1
    · rw [if_pos c2]
      by_cases c3 : g.step.step.step.value = 1
      · rw [if_pos c3]
        by_cases c4 : g.step.step.step.step.value = 1
        · exact absurd (Xor.four_zero ((Xor.value_eq_one _).mp c1) ((Xor.value_eq_one _).mp c2)
            ((Xor.value_eq_one _).mp c3) ((Xor.value_eq_one _).mp c4)) h
        · rw [if_neg c4]; exact ⟨_, _, rfl, n4, key _ n4 c4⟩
      · rw [if_neg c3]; exact ⟨_, _, rfl, n3, key _ n3 c3⟩
    · rw [if_neg c2]; exact ⟨_, _, rfl, n2, key _ n2 c2⟩
  · rw [if_neg c1]; exact ⟨_, _, rfl, n1, key _ n1 c1⟩

theorem Xor.nextFuel_mono : ∀ (f k : Nat) (g : Xor) (r : Xor × ℚ),
    Xor.nextFuel f g = some r → Xor.nextFuel (f + k) g = some r := by
  intro f
  induction f with
  | zero => intro k g r h; simp [Xor.nextFuel] at h
  | succ f ih =>
    intro k g r h
    have : f + 1 + k = (f + k) + 1 := by omega
    rw [this]
    simp only [Xor.nextFuel] at h ⊢
    split at h
    · rename_i hc; rw [if_pos hc]; exact ih k _ r h
    · rename_i hc; rw [if_neg hc]; exact h

theorem Xor.init_nonzero (seed : BitVec 64) : ¬ (Xor.init seed).Zero := by
  intro h
  have := h.1
  simp [Xor.init] at this

/-- More iterations do not change the result of the block loop. -/
theorem Xor.seqLoop_mono : ∀ (f k : Nat) (i : Int) (g : Xor) (t : List ℚ) (r : Xor × List ℚ),
    Xor.seqLoop f i g t = some r → Xor.seqLoop (f + k) i g t = some r := by
  intro f
  induction f with
  | zero =>
    intro k i g t r h
    simp only [Xor.seqLoop] at h
    split at h
    · simp at h
    · rename_i hc
      cases k with
      | zero => simp only [Xor.seqLoop]; rw [if_neg hc]; exact h
      | succ k =>
        rw [show 0 + (k + 1) = k + 1 by omega]
        simp only [Xor.seqLoop]; rw [if_neg hc]; exact h
  | succ f ih =>
    intro k i g t r h
    have : f + 1 + k = (f + k) + 1 := by omega
    rw [this]
    simp only [Xor.seqLoop] at h ⊢
    split at h
    · rename_i hc
      rw [if_pos hc]
      simp only [bind, Option.bind_eq_some_iff] at h ⊢
      obtain ⟨t1, e1, v, e2, h⟩ := h
      exact ⟨t1, e1, v, e2, ih k _ _ _ r h⟩
    · rename_i hc; rw [if_neg hc]; exact h

/-- One element of a block costs as many iterations as one `Next` costs updates. -/
theorem Xor.seqLoop_one : ∀ (f : Nat) (k : Nat) (i : Nat) (g g' : Xor) (v : ℚ) (t : List ℚ),
    i < t.length → Xor.nextFuel f g = some (g', v) →
    ∃ t' : List ℚ, t'.length = t.length ∧ t'[i]? = some v ∧ (∀ j, j ≠ i → t'[j]? = t[j]?) ∧
      ∀ r, Xor.seqLoop k (i + 1) g' t' = some r → Xor.seqLoop (f + k) i g t = some r := by
  intro f
  induction f with
  | zero => intro k i g g' v t _ h; simp [Xor.nextFuel] at h
  | succ f ih =>
    intro k i g g' v t hi h
    simp only [Xor.nextFuel] at h
    have hf : f + 1 + k = (f + k) + 1 := by omega
    have hrd : rd (t.set i g.step.value) (i : Int) = some g.step.value := by
      rw [rd_natCast, List.getElem?_set_self hi]
    split at h
    · rename_i hc
      obtain ⟨t', l1, l2, l3, l4⟩ := ih k i g.step g' v (t.set i g.step.value) (by simpa using hi) h
      refine ⟨t', by simpa using l1, l2, ?_, ?_⟩
      · intro j hj; rw [l3 j hj, List.getElem?_set_ne (by omega)]
      · intro r hr
        rw [hf]
        simp only [Xor.seqLoop]
        rw [if_pos (by omega)]
        simp only [wr_natCast hi, bind, Option.bind_some, hrd]
        rw [if_pos hc]
        have : (i : Int) - 1 + 1 = i := by omega
        rw [this]
        exact l4 r hr
    · rename_i hc
      simp only [Option.some.injEq, Prod.mk.injEq] at h
      obtain ⟨rfl, rfl⟩ := h
      refine ⟨t.set i g.step.value, by simp, List.getElem?_set_self hi, ?_, ?_⟩
      · intro j hj; rw [List.getElem?_set_ne (by omega)]
      · intro r hr
        rw [hf]
        simp only [Xor.seqLoop]
        rw [if_pos (by omega)]
        simp only [wr_natCast hi, bind, Option.bind_some, hrd]
        rw [if_neg hc]
        have := Xor.seqLoop_mono k f _ _ _ r hr
        rw [Nat.add_comm f k]
        exact this

end Verif.Rand
