import Verif.Scripts.BinnedModel
import Mathlib.Data.List.GetD
import Mathlib.Tactic.Linarith
import Mathlib.Tactic.FieldSimp
import Mathlib.Tactic.Ring
import Mathlib.Algebra.Order.Floor.Ring

/-! # C180, C181: binned means, radii of cells and random directions -/

set_option autoImplicit false

namespace Verif.Scripts

open Verif.Go

/-- Bin `k` of `n` bins between `lo` and `hi`: half open, the last one closed. -/
def InBin (n : Nat) (lo hi : ℚ) (k : Nat) (v : ℚ) : Prop :=
  lo + k * ((hi - lo) / n) ≤ v ∧ (v < lo + (k + 1) * ((hi - lo) / n) ∨ (k + 1 = n ∧ v = hi))

instance (n : Nat) (lo hi : ℚ) (k : Nat) (v : ℚ) : Decidable (InBin n lo hi k v) := by unfold InBin; infer_instance

/-- The values, without NaN, of the first `m` points in bin `k`. -/
def binVals (n : Nat) (lo hi : ℚ) (ok : Nat → Bool) (v : Nat → ℚ) (y : Nat → Option ℚ) (m k : Nat) : List ℚ :=
  (List.range m).filterMap fun i => if ok i = true ∧ InBin n lo hi k (v i) then y i else none

theorem binVals_succ (n : Nat) (lo hi : ℚ) (ok : Nat → Bool) (v : Nat → ℚ) (y : Nat → Option ℚ) (m k : Nat) :
    binVals n lo hi ok v y (m + 1) k = binVals n lo hi ok v y m k ++
      (if ok m = true ∧ InBin n lo hi k (v m) then y m else none).toList := by
  unfold binVals
  rw [List.range_succ, List.filterMap_append]
  congr 1

/-- The index computed for a point is that of its bin, and of no other. -/
theorem bin_index {n : Nat} {lo hi v : ℚ} (hn : 0 < n) (hlh : lo < hi) (h1 : lo ≤ v) (h2 : v ≤ hi) :
    ∃ k0 : Nat, k0 < n ∧
      (if trunc ((v - lo) / ((hi - lo) / n)) = n then trunc ((v - lo) / ((hi - lo) / n)) - 1
        else trunc ((v - lo) / ((hi - lo) / n))) = k0 ∧
      ∀ k, k < n → (InBin n lo hi k v ↔ k = k0) := by
  have hnq : (0 : ℚ) < n := by exact_mod_cast hn
  have hw : 0 < (hi - lo) / n := div_pos (by linarith) hnq
  have hwn : (n : ℚ) * ((hi - lo) / n) = hi - lo := by field_simp
  set w := (hi - lo) / n with hwdef
  have hq : 0 ≤ (v - lo) / w := div_nonneg (by linarith) hw.le
  rw [trunc_of_nonneg hq]
  have f1 : (⌊(v - lo) / w⌋ : ℚ) * w ≤ v - lo := by
    have := Int.floor_le ((v - lo) / w)
    rwa [le_div_iff₀ hw] at this
  have f2 : v - lo < ((⌊(v - lo) / w⌋ : ℚ) + 1) * w := by
    have := Int.lt_floor_add_one ((v - lo) / w)
    rwa [div_lt_iff₀ hw] at this
  have f0 : 0 ≤ ⌊(v - lo) / w⌋ := Int.floor_nonneg.2 hq
  obtain ⟨f, hf⟩ := Int.eq_ofNat_of_zero_le f0
  rw [hf] at f1 f2 ⊢
  push_cast at f1 f2
  have uniq : ∀ a b : Nat, (a : ℚ) * w ≤ v - lo → v - lo < (b + 1) * w → a ≤ b := by
    intro a b ha hb
    have : (a : ℚ) * w < (b + 1) * w := lt_of_le_of_lt ha hb
    have := lt_of_mul_lt_mul_right this hw.le
    have : a < b + 1 := by exact_mod_cast this
    omega
  have fn : f ≤ n := by
    refine uniq f n f1 ?_
    nlinarith
  rcases Nat.lt_or_ge f n with hlt | hge
  · refine ⟨f, hlt, ?_, ?_⟩
    · rw [if_neg (by omega)]
    · intro k hk
      constructor
      · rintro ⟨a1, a2⟩
        rcases a2 with a2 | ⟨a3, a2⟩
        · have := uniq f k f1 (by linarith)
          have := uniq k f (by linarith) f2
          omega
        · exfalso
          have : (f + 1 : ℚ) ≤ n := by exact_mod_cast hlt
          nlinarith
      · rintro rfl
        exact ⟨by linarith, Or.inl (by linarith)⟩
  · have hfn : f = n := by omega
    subst hfn
    have hv : v = hi := by
      have : (f : ℚ) * w = hi - lo := hwn
      linarith
    refine ⟨f - 1, by omega, ?_, ?_⟩
    · rw [if_pos rfl]; omega
    · intro k hk
      constructor
      · rintro ⟨a1, a2⟩
        rcases a2 with a2 | ⟨a3, a2⟩
        · exfalso
          have : (k + 1 : ℚ) ≤ f := by exact_mod_cast hk
          nlinarith
        · omega
      · rintro rfl
        have hc : ((f - 1 : Nat) : ℚ) = f - 1 := by rw [Nat.cast_sub (by omega)]; simp
        refine ⟨?_, Or.inr ⟨by omega, hv⟩⟩
        rw [hc]
        nlinarith

/-- Nothing outside the limits is in a bin. -/
theorem not_inBin {n : Nat} {lo hi v : ℚ} (hn : 0 < n) (hlh : lo < hi) (h : v < lo ∨ hi < v) {k : Nat} (hk : k < n) :
    ¬ InBin n lo hi k v := by
  have hnq : (0 : ℚ) < n := by exact_mod_cast hn
  have hw : 0 < (hi - lo) / n := div_pos (by linarith) hnq
  have hwn : (n : ℚ) * ((hi - lo) / n) = hi - lo := by field_simp
  have hk0 : (0 : ℚ) ≤ k := Nat.cast_nonneg k
  have hk1 : (k + 1 : ℚ) ≤ n := by exact_mod_cast hk
  rintro ⟨a1, a2⟩
  rcases h with h | h
  · nlinarith
  · rcases a2 with a2 | ⟨_, a2⟩
    · nlinarith
    · linarith

theorem binLoop_spec (opt : BinOpt) (lg : ℚ → ℚ) (n : Nat) (lo hi : ℚ) (hn : 0 < n) (hlh : lo < hi) (xs : List ℚ)
    (ys : List (Option ℚ)) (hl : ys.length = xs.length) (ok : Nat → Bool) (hok : ∀ i, i < xs.length → opt.skip i = some (!ok i)) :
    ∃ counts means, binLoop opt lg n lo (some hi) xs ys = some (counts, means) ∧ counts.length = n ∧ means.length = n ∧
      ∀ k, k < n → counts[k]? = some (((binVals n lo hi ok (fun i => if opt.useLog then lg (xs.getD i 0) else xs.getD i 0)
          (fun i => ys.getD i none) xs.length k).length : Nat) : ℤ) ∧
        means[k]? = some (binVals n lo hi ok (fun i => if opt.useLog then lg (xs.getD i 0) else xs.getD i 0)
          (fun i => ys.getD i none) xs.length k).sum := by
  set v : Nat → ℚ := fun i => if opt.useLog then lg (xs.getD i 0) else xs.getD i 0 with hv
  set y : Nat → Option ℚ := fun i => ys.getD i none with hy
  obtain ⟨⟨counts, means⟩, e, h1, h2, h3⟩ := forRange_nat (lo := 0) (hi := xs.length)
    (fun m (st : List ℤ × List ℚ) => st.1.length = n ∧ st.2.length = n ∧ ∀ k, k < n →
      st.1[k]? = some (((binVals n lo hi ok v y m k).length : Nat) : ℤ) ∧ st.2[k]? = some (binVals n lo hi ok v y m k).sum)
    (Nat.zero_le _)
    (fun i st => do
      let s ← opt.skip i
      if s then some st
      else do
        let x ← rd xs i
        let y ← rd ys i
        binPoint n lo (some hi) (if opt.useLog then lg x else x) y st)
    (List.replicate n 0, List.replicate n 0)
    (by
      refine ⟨by simp, by simp, fun k hk => ?_⟩
      simp [binVals, hk])
    (by
      rintro m ⟨cs, ms⟩ - hm ⟨c1, c2, c3⟩
      simp only at c1 c2 c3
      rw [hok m hm]
      simp only [Option.bind_eq_bind, Option.bind_some]
      cases hokm : ok m with
      | false =>
        refine ⟨(cs, ms), by simp, c1, c2, fun k hk => ?_⟩
        rw [binVals_succ]
        simpa [hokm] using c3 k hk
      | true =>
        have r1 : rd xs (m : Int) = some (xs.getD m 0) := by
          rw [rd_of_lt hm, List.getD_eq_getElem _ _ hm]
        have r2 : rd ys (m : Int) = some (y m) := by
          rw [rd_of_lt (by omega : m < ys.length)]
          exact congrArg some (List.getD_eq_getElem _ _ (by omega : m < ys.length)).symm
        simp only [r1, r2, Option.bind_some, Bool.not_true, Bool.false_eq_true, if_false]
        have hvm : (if opt.useLog = true then lg (xs.getD m 0) else xs.getD m 0) = v m := by rw [hv]
        rw [hvm]
        unfold binPoint
        by_cases hout : v m < lo ∨ hi < v m
        · rw [if_pos (by simpa using hout)]
          refine ⟨(cs, ms), rfl, c1, c2, fun k hk => ?_⟩
          rw [binVals_succ, if_neg (fun h => not_inBin hn hlh hout hk h.2)]
          simpa using c3 k hk
        · rw [if_neg (by simpa using hout)]
          have g1 : lo ≤ v m := not_lt.1 fun h => hout (Or.inl h)
          have g2 : v m ≤ hi := not_lt.1 fun h => hout (Or.inr h)
          obtain ⟨k0, hk0, hidx, huniq⟩ := bin_index hn hlh g1 g2
          have hw : (hi - lo) / n ≠ 0 := (div_pos (by linarith) (by exact_mod_cast hn : (0 : ℚ) < n)).ne'
          simp only [Option.bind_eq_bind, Option.bind_some, if_neg hw, hidx]
          have rc : rd cs (k0 : Int) = some cs[k0] := rd_of_lt (by omega)
          have rm : rd ms (k0 : Int) = some ms[k0] := rd_of_lt (by omega)
          simp only [rc, Option.bind_some]
          cases hym : y m with
          | none =>
            refine ⟨(cs, ms), rfl, c1, c2, fun k hk => ?_⟩
            rw [binVals_succ]
            simpa [hym] using c3 k hk
          | some q =>
            simp only [rm, wr_natCast (show k0 < cs.length by omega), wr_natCast (show k0 < ms.length by omega),
              Option.bind_some]
            refine ⟨_, rfl, by simpa using c1, by simpa using c2, fun k hk => ?_⟩
            rw [binVals_succ]
            obtain ⟨d1, d2⟩ := c3 k hk
            by_cases hkk : k = k0
            · subst hkk
              have hin : InBin n lo hi k (v m) := (huniq k hk).2 rfl
              rw [List.getElem?_eq_getElem (by omega)] at d1 d2
              have e1 : cs[k] = _ := Option.some.inj d1
              have e2 : ms[k] = _ := Option.some.inj d2
              constructor
              · rw [List.getElem?_set_self (by omega), e1]
                simp [hokm, hin, hym]
              · rw [List.getElem?_set_self (by omega), e2]
                simp [hokm, hin, hym]
            · have hin : ¬ InBin n lo hi k (v m) := fun h => hkk ((huniq k hk).1 h)
              rw [List.getElem?_set_ne (Ne.symm hkk), List.getElem?_set_ne (Ne.symm hkk)]
              simpa [hin] using c3 k hk)
  refine ⟨counts, means, ?_, h1, h2, h3⟩
  unfold binLoop
  simpa using e

theorem take_set_self {α : Type} (l : List α) (s : Nat) (a : α) (h : s < l.length) :
    (l.set s a).take (s + 1) = l.take s ++ [a] := by
  rw [List.take_add_one, List.getElem?_set_self h, List.take_set_of_le (le_refl _)]
  rfl

theorem shift_spec (opt : BinOpt) (ex : ℚ → ℚ) (lo w : ℚ) (n : Nat) (counts : List ℤ) (means : List ℚ) (l : Nat → List ℚ)
    (h1 : counts.length = n) (h2 : means.length = n)
    (h3 : ∀ k, k < n → counts[k]? = some (((l k).length : Nat) : ℤ) ∧ means[k]? = some (l k).sum) :
    ∃ vals ms, ∃ s : Nat, forRange 0 n (shiftTurn opt ex lo w counts) (List.replicate n 0, means, 0) = some (vals, ms, (s : Int)) ∧
      vals.take s = ((List.range n).filter fun k => l k ≠ []).map (fun k : Nat => if opt.useLog then ex ((k + 1 / 2) * w + lo)
        else (k + 1 / 2) * w + lo) ∧
      ms.take s = ((List.range n).filter fun k => l k ≠ []).map fun k => (l k).sum / (l k).length := by
  obtain ⟨⟨vals, ms, si⟩, e, s, g1, _, _, _, g5, g6, _⟩ := forRange_nat (lo := 0) (hi := n)
    (fun j (st : List ℚ × List ℚ × Int) => ∃ s : Nat, st.2.2 = s ∧ s ≤ j ∧ st.1.length = n ∧ st.2.1.length = n ∧
      st.1.take s = ((List.range j).filter fun k => l k ≠ []).map (fun k : Nat => if opt.useLog then ex ((k + 1 / 2) * w + lo)
        else (k + 1 / 2) * w + lo) ∧
      st.2.1.take s = (((List.range j).filter fun k => l k ≠ []).map fun k => (l k).sum / (l k).length) ∧
      ∀ k, j ≤ k → k < n → st.2.1[k]? = some (l k).sum)
    (Nat.zero_le _) (shiftTurn opt ex lo w counts) (List.replicate n 0, means, 0)
    ⟨0, rfl, le_refl _, by simp, h2, by simp, by simp, fun k _ hk => (h3 k hk).2⟩
    (by
      rintro j ⟨vals, ms, si⟩ - hj ⟨s, g1, g2, g3, g4, g5, g6, g7⟩
      simp only at g1 g3 g4 g5 g6 g7
      subst g1
      unfold shiftTurn
      rw [rd_natCast, (h3 j hj).1]
      simp only [Option.bind_eq_bind, Option.bind_some]
      by_cases hz : l j = []
      · rw [if_pos (by simp [hz])]
        refine ⟨_, rfl, s, rfl, by omega, g3, g4, ?_, ?_, fun k hk hk' => g7 k (by omega) hk'⟩
        · rw [List.range_succ, List.filter_append]
          simpa [hz] using g5
        · rw [List.range_succ, List.filter_append]
          simpa [hz] using g6
      · rw [if_neg (by simpa using hz), rd_natCast, g7 j (le_refl _) hj]
        simp only [Option.bind_some, wr_natCast (show s < ms.length by omega), wr_natCast (show s < vals.length by omega)]
        refine ⟨_, rfl, s + 1, by push_cast; rfl, by omega, by simpa using g3, by simpa using g4, ?_, ?_, ?_⟩
        · rw [take_set_self _ _ _ (by omega), g5, List.range_succ, List.filter_append, List.map_append]
          simp [hz]
        · rw [take_set_self _ _ _ (by omega), g6, List.range_succ, List.filter_append, List.map_append]
          simp [hz]
        · intro k hk hk'
          rw [List.getElem?_set_ne (by omega)]
          exact g7 k (by omega) hk')
  refine ⟨vals, ms, s, ?_, g5, g6⟩
  simp only at g1
  rw [← g1]
  simpa using e

theorem means_core (lg ex : ℚ → ℚ) (big tiny : ℚ) (xs : List ℚ) (ys : List (Option ℚ)) (n : Nat) (opt : BinOpt)
    (lo hi : ℚ) (hlim : binLimits opt big tiny xs ys = some (lo, some hi)) (hn : 0 < n)
    (hlh : (if opt.useLog then lg lo else lo) < (if opt.useLog then lg hi else hi)) (hl : ys.length = xs.length)
    (ok : Nat → Bool) (hok : ∀ i, i < xs.length → opt.valid = none ∧ ok i = true ∨ ∃ v, opt.valid = some v ∧ v[i]? = some (ok i)) :
    let t := fun x => if opt.useLog then lg x else x
    let l := binVals n (t lo) (t hi) ok (fun i => t (xs.getD i 0)) (fun i => ys.getD i none) xs.length
    binnedMean lg ex big tiny xs ys n opt = some
      (((List.range n).filter fun k => l k ≠ []).map (fun k : Nat =>
        if opt.useLog then ex (t lo + (k + 1 / 2) * ((t hi - t lo) / n)) else t lo + (k + 1 / 2) * ((t hi - t lo) / n)),
       ((List.range n).filter fun k => l k ≠ []).map fun k => (l k).sum / (l k).length) := by
  intro t l
  have hsk : ∀ i : Nat, i < xs.length → opt.skip i = some (!ok i) := by
    intro i hi'
    unfold BinOpt.skip
    rcases hok i hi' with ⟨h1, h2⟩ | ⟨v, h1, h2⟩
    · rw [h1, h2]; rfl
    · rw [h1]
      simp only [rd_natCast, h2, Option.map_some]
  obtain ⟨counts, means, e1, c1, c2, c3⟩ := binLoop_spec opt lg n (t lo) (t hi) hn hlh xs ys hl ok hsk
  obtain ⟨vals, ms, s, e2, v1, v2⟩ := shift_spec opt ex (t lo) ((t hi - t lo) / n) n counts means l c1 c2 c3
  unfold binnedMean
  simp only [hlim, Option.bind_eq_bind, Option.bind_some]
  have ht : (if opt.useLog = true then Option.map lg (some hi) else some hi) = some (t hi) := by
    show _ = some (if opt.useLog then lg hi else hi)
    split <;> rfl
  have htl : (if opt.useLog = true then lg lo else lo) = t lo := rfl
  rw [ht, htl, e1]
  simp only [Option.bind_some, Option.map_some, Option.getD_some, e2, Int.toNat_natCast, v1, v2]
  congr 2
  refine List.map_congr_left fun k _ => ?_
  rw [add_comm]

/-- C180: with both limits given, the result has, for each bin with a value and in the order of the bins, the centre of the bin
and the mean of the values in it. NaN and points that are not valid or outside the limits do not count. -/
theorem C180_means_partial (lg ex : ℚ → ℚ) (big tiny : ℚ) (xs : List ℚ) (ys : List (Option ℚ)) (n : Nat) (opt : BinOpt)
    (lo hi : ℚ) (hlo : opt.lowLim = some lo) (hhi : opt.highLim = some hi) (hn : 0 < n)
    (hlh : (if opt.useLog then lg lo else lo) < (if opt.useLog then lg hi else hi)) (hl : ys.length = xs.length)
    (ok : Nat → Bool) (hok : ∀ i, i < xs.length → opt.valid = none ∧ ok i = true ∨ ∃ v, opt.valid = some v ∧ v[i]? = some (ok i)) :
    let t := fun x => if opt.useLog then lg x else x
    let l := binVals n (t lo) (t hi) ok (fun i => t (xs.getD i 0)) (fun i => ys.getD i none) xs.length
    binnedMean lg ex big tiny xs ys n opt = some
      (((List.range n).filter fun k => l k ≠ []).map (fun k : Nat =>
        if opt.useLog then ex (t lo + (k + 1 / 2) * ((t hi - t lo) / n)) else t lo + (k + 1 / 2) * ((t hi - t lo) / n)),
       ((List.range n).filter fun k => l k ≠ []).map fun k => (l k).sum / (l k).length) :=
  means_core lg ex big tiny xs ys n opt lo hi (by unfold binLimits; rw [hlo, hhi]) hn hlh hl ok hok

/-- The points that count: valid, and with a value that is not NaN. -/
def Counts (xs : List ℚ) (ys : List (Option ℚ)) (ok : Nat → Bool) (i : Nat) : Prop :=
  i < xs.length ∧ ok i = true ∧ ys.getD i none ≠ none

theorem limitLoop_spec (opt : BinOpt) (better : ℚ → ℚ → Bool) (xs : List ℚ) (ys : List (Option ℚ)) (start : ℚ)
    (hl : ys.length = xs.length) (ok : Nat → Bool) (hok : ∀ i, i < xs.length → opt.skip i = some (!ok i)) (le : ℚ → ℚ → Prop)
    (hrefl : ∀ a, le a a) (htrans : ∀ a b c, le a b → le b c → le a c) (hb : ∀ x m, better x m = true → le x m)
    (hnb : ∀ x m, better x m = false → le m x) :
    ∃ m, limitLoop opt better xs ys start = some m ∧ (∀ i, Counts xs ys ok i → le m (xs.getD i 0)) ∧ le m start ∧
      (m = start ∨ ∃ i, Counts xs ys ok i ∧ m = xs.getD i 0) := by
  obtain ⟨m, e, h1, h2, h3⟩ := forRange_nat (lo := 0) (hi := xs.length)
    (fun j (m : ℚ) => (∀ i, i < j → Counts xs ys ok i → le m (xs.getD i 0)) ∧ le m start ∧
      (m = start ∨ ∃ i, Counts xs ys ok i ∧ m = xs.getD i 0))
    (Nat.zero_le _)
    (limitTurn opt better xs ys) start
    ⟨by simp, hrefl _, Or.inl rfl⟩
    (by
      rintro j m - hj ⟨h1, h2, h3⟩
      have r1 : rd xs (j : Int) = some (xs.getD j 0) := by
        rw [rd_of_lt hj, List.getD_eq_getElem _ _ hj]
      have r2 : rd ys (j : Int) = some (ys.getD j none) := by
        rw [rd_of_lt (by omega : j < ys.length)]
        exact congrArg some (List.getD_eq_getElem _ _ (by omega : j < ys.length)).symm
      unfold limitTurn
      simp only [r1, r2, hok j hj, Option.bind_eq_bind, Option.bind_some]
      have keep : ¬ Counts xs ys ok j → ∀ i, i < j + 1 → Counts xs ys ok i → le m (xs.getD i 0) := by
        intro hc i hi hci
        rcases Nat.lt_or_ge i j with h | h
        · exact h1 i h hci
        · have : i = j := by omega
          subst this
          exact absurd hci hc
      cases hokj : ok j with
      | false =>
        refine ⟨m, by simp, keep ?_, h2, h3⟩
        rintro ⟨_, h, _⟩
        simp [hokj] at h
      | true =>
        simp only [Bool.not_true, Bool.false_eq_true, if_false]
        cases hy : ys.getD j none with
        | none =>
          refine ⟨m, rfl, keep ?_, h2, h3⟩
          rintro ⟨_, _, h⟩
          exact h hy
        | some q =>
          have hc : Counts xs ys ok j := ⟨hj, hokj, by rw [hy]; simp⟩
          refine ⟨_, rfl, ?_, ?_, ?_⟩
          · intro i hi hci
            cases hbj : better (xs.getD j 0) m with
            | true =>
              simp only [if_true]
              rcases Nat.lt_or_ge i j with h | h
              · exact htrans _ _ _ (hb _ _ hbj) (h1 i h hci)
              · rw [show i = j by omega]; exact hrefl _
            | false =>
              simp only [Bool.false_eq_true, if_false]
              rcases Nat.lt_or_ge i j with h | h
              · exact h1 i h hci
              · rw [show i = j by omega]; exact hnb _ _ hbj
          · cases hbj : better (xs.getD j 0) m with
            | true => simpa using htrans _ _ _ (hb _ _ hbj) h2
            | false => simpa using h2
          · cases hbj : better (xs.getD j 0) m with
            | true => exact Or.inr ⟨j, hc, by simp⟩
            | false => simpa using h3)
  refine ⟨m, ?_, fun i hi => h1 i hi.1 hi, h2, h3⟩
  unfold limitLoop
  simpa using e

/-- C180: without limits, these are the least and the greatest of the points that count, if they are within the range of floats
and one of them is positive; results are as with given limits. -/
theorem C180_auto_partial (lg ex : ℚ → ℚ) (big tiny : ℚ) (xs : List ℚ) (ys : List (Option ℚ)) (n : Nat) (opt : BinOpt)
    (lo hi : ℚ) (hlo : opt.lowLim = none) (hn : 0 < n)
    (hlh : (if opt.useLog then lg lo else lo) < (if opt.useLog then lg hi else hi)) (hl : ys.length = xs.length)
    (ok : Nat → Bool) (hok : ∀ i, i < xs.length → opt.valid = none ∧ ok i = true ∨ ∃ v, opt.valid = some v ∧ v[i]? = some (ok i))
    (hleast : IsLeast {x | ∃ i, Counts xs ys ok i ∧ x = xs.getD i 0} lo)
    (hgreatest : IsGreatest {x | ∃ i, Counts xs ys ok i ∧ x = xs.getD i 0} hi) (hbig : lo ≤ big) (htiny : tiny ≤ hi) :
    let t := fun x => if opt.useLog then lg x else x
    let l := binVals n (t lo) (t hi) ok (fun i => t (xs.getD i 0)) (fun i => ys.getD i none) xs.length
    binnedMean lg ex big tiny xs ys n opt = some
      (((List.range n).filter fun k => l k ≠ []).map (fun k : Nat =>
        if opt.useLog then ex (t lo + (k + 1 / 2) * ((t hi - t lo) / n)) else t lo + (k + 1 / 2) * ((t hi - t lo) / n)),
       ((List.range n).filter fun k => l k ≠ []).map fun k => (l k).sum / (l k).length) := by
  refine means_core lg ex big tiny xs ys n opt lo hi ?_ hn hlh hl ok hok
  have hsk : ∀ i : Nat, i < xs.length → opt.skip i = some (!ok i) := by
    intro i hi'
    unfold BinOpt.skip
    rcases hok i hi' with ⟨h1, h2⟩ | ⟨v, h1, h2⟩
    · rw [h1, h2]; rfl
    · rw [h1]
      simp only [rd_natCast, h2, Option.map_some]
  obtain ⟨m1, e1, a1, a2, a3⟩ := limitLoop_spec opt (fun x m => decide (x < m)) xs ys big hl ok hsk (· ≤ ·) (fun _ => le_refl _)
    (fun _ _ _ => le_trans) (fun x m h => (of_decide_eq_true h).le) (fun x m h => not_lt.1 (of_decide_eq_false h))
  obtain ⟨m2, e2, b1, b2, b3⟩ := limitLoop_spec opt (fun x m => decide (x > m)) xs ys tiny hl ok hsk (· ≥ ·) (fun _ => le_refl _)
    (fun _ _ _ h h' => le_trans h' h) (fun x m h => (of_decide_eq_true h).le) (fun x m h => not_lt.1 (of_decide_eq_false h))
  obtain ⟨i, hi1, hi2⟩ := hleast.1
  obtain ⟨j, hj1, hj2⟩ := hgreatest.1
  have q1 : m1 = lo := by
    refine le_antisymm (by rw [hi2]; exact a1 i hi1) ?_
    rcases a3 with rfl | ⟨k, hk, rfl⟩
    · exact hbig
    · exact hleast.2 ⟨k, hk, rfl⟩
  have q2 : m2 = hi := by
    refine le_antisymm ?_ (by rw [hj2]; exact b1 j hj1)
    rcases b3 with rfl | ⟨k, hk, rfl⟩
    · exact htiny
    · exact hgreatest.2 ⟨k, hk, rfl⟩
  unfold binLimits
  rw [hlo]
  simp only [e1, e2, Option.bind_eq_bind, Option.bind_some, q1, q2]

/-- Without the lower limit the upper one is not looked at. -/
theorem C180_high_ignored (lg ex : ℚ → ℚ) (big tiny : ℚ) (xs : List ℚ) (ys : List (Option ℚ)) (n : Nat) (opt : BinOpt)
    (hlo : opt.lowLim = none) (h : Option ℚ) :
    binnedMean lg ex big tiny xs ys n { opt with highLim := h } = binnedMean lg ex big tiny xs ys n opt := by
  obtain ⟨v, l, hh, u⟩ := opt
  obtain rfl : l = none := hlo
  rfl

/-- C180 is false: an upper limit alone is ignored; a lower limit alone panics; so do points that are all equal; without
limits, bins of negative points reach up to 0 (to the least positive float). -/
theorem C180_counterexample :
    binnedMean id id 1000 (1 / 1000) [1, 2, 9] [some 1, some 1, some 1] 2 ⟨none, none, some 3, false⟩ =
      some ([3, 7], [1, 1]) ∧
    binnedMean id id 1000 (1 / 1000) [1, 2, 9] [some 1, some 1, some 1] 2 ⟨none, some 0, none, false⟩ = none ∧
    binnedMean id id 1000 (1 / 1000) [2, 2] [some 1, some 1] 2 ⟨none, none, none, false⟩ = none ∧
    binLimits ⟨none, none, none, false⟩ 1000 (1 / 1000) [-3, -2] [some 1, some 1] = some (-3, some (1 / 1000)) := by
  decide +kernel

example : binnedMean id id 1000 (1 / 1000) [0, 1, 2, 5, 9, 10, 11] [some 1, some 3, none, some 7, some 4, some 6, some 100] 5
    ⟨some [true, true, true, false, true, true, true], some 0, some 10, false⟩ = some ([1, 9], [2, 5]) := by decide +kernel

example : IsLeast {x | ∃ i, Counts [4, 1, 2] [some 1, some 2, none] (fun _ => true) i ∧ x = ([4, 1, 2] : List ℚ).getD i 0} 1 ∧
    IsGreatest {x | ∃ i, Counts [4, 1, 2] [some 1, some 2, none] (fun _ => true) i ∧ x = ([4, 1, 2] : List ℚ).getD i 0} 4 := by
  refine ⟨⟨⟨1, ⟨by simp, rfl, by simp⟩, by simp⟩, ?_⟩, ⟨⟨0, ⟨by simp, rfl, by simp⟩, by simp⟩, ?_⟩⟩ <;>
  · rintro x ⟨i, ⟨hi, _, _⟩, rfl⟩
    simp at hi
    rcases (by omega : i = 0 ∨ i = 1 ∨ i = 2) with rfl | rfl | rfl <;> norm_num

/-! ## C181 -/

/-- `radii` writes the squared distance of cell `(x, y, z)` from one fixed point, in the order of the grid. -/
theorem radii_writes (sx sy sz : Nat) (cw : ℚ) :
    ∃ rs, radiiSq sx sy sz cw = some rs ∧ rs.length = sx * sy * sz ∧
      ∀ x y z : Nat, x < sx → y < sy → z < sz → rs[x + y * sx + z * (sx * sy)]? =
        some (radii2 sx sy sz cw x y z) := by
  -- the value at a position of the list
  let F : Nat → ℚ := fun p => radii2 sx sy sz cw (p % sx : Nat) (p / sx % sy : Nat) (p / (sx * sy) : Nat)
  have hF : ∀ x y z : Nat, x < sx → y < sy → F (x + y * sx + z * (sx * sy)) = radii2 sx sy sz cw x y z := by
    intro x y z hx hy
    have e1 : (x + y * sx + z * (sx * sy)) % sx = x := by
      rw [show x + y * sx + z * (sx * sy) = x + sx * (y + z * sy) by ring, Nat.add_mul_mod_self_left, Nat.mod_eq_of_lt hx]
    have e2 : (x + y * sx + z * (sx * sy)) / sx = y + sy * z := by
      rw [show x + y * sx + z * (sx * sy) = x + sx * (y + sy * z) by ring, Nat.add_mul_div_left _ _ (by omega),
        Nat.div_eq_of_lt hx, Nat.zero_add]
    have e3 : (x + y * sx + z * (sx * sy)) / (sx * sy) = z := by
      rw [← Nat.div_div_eq_div_mul, e2, Nat.add_mul_div_left _ _ (by omega), Nat.div_eq_of_lt hy, Nat.zero_add]
    show radii2 _ _ _ _ _ _ _ = _
    rw [e1, e2, e3, Nat.add_mul_mod_self_left, Nat.mod_eq_of_lt hy]
  let I : Nat → List ℚ × Int → Prop := fun p st => st.2 = p ∧ st.1.length = sx * sy * sz ∧ ∀ q, q < p → st.1[q]? = some (F q)
  have hx : ∀ y z : Nat, y < sy → z < sz → ∀ st, I (y * sx + z * (sx * sy)) st → ∃ st',
      forRange 0 (sx : Int) (fun x (st : List ℚ × Int) => do
        let rs ← wr st.1 st.2 (radii2 sx sy sz cw x y z)
        some (rs, st.2 + 1)) st = some st' ∧ I ((y + 1) * sx + z * (sx * sy)) st' := by
    intro y z hy hz st hst
    obtain ⟨st', e, h⟩ := forRange_nat (lo := 0) (hi := sx) (fun x st => I (x + y * sx + z * (sx * sy)) st) (Nat.zero_le _)
      (fun x (st : List ℚ × Int) => do
        let rs ← wr st.1 st.2 (radii2 sx sy sz cw x y z)
        some (rs, st.2 + 1)) st (by simpa using hst)
      (by
        rintro x ⟨rs, p⟩ - hx ⟨h1, h2, h3⟩
        simp only at h1 h2 h3
        have hlt : x + y * sx + z * (sx * sy) < sx * sy * sz := by
          have a1 : x + y * sx < sx * sy := by
            calc x + y * sx < sx + y * sx := by omega
              _ = sx * (y + 1) := by ring
              _ ≤ sx * sy := Nat.mul_le_mul_left _ hy
          calc x + y * sx + z * (sx * sy) < sx * sy + z * (sx * sy) := by omega
            _ = sx * sy * (z + 1) := by ring
            _ ≤ sx * sy * sz := Nat.mul_le_mul_left _ hz
        rw [h1, wr_natCast (by show _ < rs.length; omega)]
        refine ⟨_, rfl, by push_cast; ring, by simpa using h2, ?_⟩
        intro q hq
        rcases Nat.lt_or_ge q (x + y * sx + z * (sx * sy)) with h | h
        · rw [List.getElem?_set_ne (by omega)]
          exact h3 q h
        · have : q = x + y * sx + z * (sx * sy) := by omega
          subst this
          rw [List.getElem?_set_self (by show _ < rs.length; omega), hF x y z hx hy])
    refine ⟨st', by simpa using e, ?_⟩
    rwa [show (y + 1) * sx + z * (sx * sy) = sx + y * sx + z * (sx * sy) by ring]
  have hyl : ∀ z : Nat, z < sz → ∀ st, I (z * (sx * sy)) st → ∃ st',
      forRange 0 (sy : Int) (fun y st => forRange 0 (sx : Int) (fun x (st : List ℚ × Int) => do
        let rs ← wr st.1 st.2 (radii2 sx sy sz cw x y z)
        some (rs, st.2 + 1)) st) st = some st' ∧ I ((z + 1) * (sx * sy)) st' := by
    intro z hz st hst
    obtain ⟨st', e, h⟩ := forRange_nat (lo := 0) (hi := sy) (fun y st => I (y * sx + z * (sx * sy)) st) (Nat.zero_le _)
      (fun y st => forRange 0 (sx : Int) (fun x (st : List ℚ × Int) => do
        let rs ← wr st.1 st.2 (radii2 sx sy sz cw x y z)
        some (rs, st.2 + 1)) st) st (by simpa using hst)
      (by
        intro y st _ hy h
        exact hx y z hy hz st h)
    refine ⟨st', by simpa using e, ?_⟩
    rwa [show (z + 1) * (sx * sy) = sy * sx + z * (sx * sy) by ring]
  obtain ⟨⟨rs, p⟩, e, h⟩ := forRange_nat (lo := 0) (hi := sz) (fun z st => I (z * (sx * sy)) st) (Nat.zero_le _)
    (fun z st => forRange 0 (sy : Int) (fun y st => forRange 0 (sx : Int) (fun x (st : List ℚ × Int) => do
        let rs ← wr st.1 st.2 (radii2 sx sy sz cw x y z)
        some (rs, st.2 + 1)) st) st) (List.replicate ((sx : Int) * sy * sz).toNat 0, 0)
    ⟨by simp, by rw [List.length_replicate]; exact_mod_cast Int.toNat_natCast _, by simp⟩
    (by
      intro z st _ hz h
      exact hyl z hz st h)
  obtain ⟨h1, h2, h3⟩ := h
  refine ⟨rs, ?_, h2, ?_⟩
  · unfold radiiSq
    simp only [Nat.cast_zero] at e
    rw [e]; rfl
  · intro x y z hx hy hz
    rw [← hF x y z hx hy]
    refine h3 _ ?_
    have a1 : x + y * sx < sx * sy := by
      calc x + y * sx < sx + y * sx := by omega
        _ = sx * (y + 1) := by ring
        _ ≤ sx * sy := Nat.mul_le_mul_left _ hy
    calc x + y * sx + z * (sx * sy) < sx * sy + z * (sx * sy) := by omega
      _ = (z + 1) * (sx * sy) := by ring
      _ ≤ sz * (sx * sy) := Nat.mul_le_mul_right _ hz

/-- C181: one entry for each cell, in the order of the grid; it is the squared distance of the cell from a point that is a quarter
of a cell from the middle of the grid along each axis. -/
theorem C181_radii_partial (sx sy sz : Nat) (cw : ℚ) :
    ∃ rs, radiiSq sx sy sz cw = some rs ∧ rs.length = sx * sy * sz ∧
      ∀ x y z : Nat, x < sx → y < sy → z < sz → rs[x + y * sx + z * (sx * sy)]? =
        some (((x - (sx - 1) / 2 - 1 / 4) * cw) ^ 2 + ((y - (sy - 1) / 2 - 1 / 4) * cw) ^ 2 +
          ((z - (sz - 1) / 2 - 1 / 4) * cw) ^ 2) := by
  obtain ⟨rs, e, h1, h2⟩ := radii_writes sx sy sz cw
  refine ⟨rs, e, h1, fun x y z hx hy hz => ?_⟩
  rw [h2 x y z hx hy hz, radii2]
  congr 1
  push_cast
  ring

/-- C181 is false: two cells beside each other are not at the same distance from the middle. -/
theorem C181_radii_counterexample : radiiSq 2 1 1 4 = some [11, 3] := by decide +kernel

/-- C181: a random direction has length 1, is along the point drawn, and is 0 along the axis. -/
theorem C181_unit (axis : ℤ) (x y z : ℝ) (h : (axis ≠ 0 ∧ x ≠ 0) ∨ (axis ≠ 1 ∧ y ≠ 0) ∨ (axis ≠ 2 ∧ z ≠ 0)) :
    let u := randomUnit axis x y z
    u.1 ^ 2 + u.2.1 ^ 2 + u.2.2 ^ 2 = 1 ∧ (axis = 0 → u.1 = 0) ∧ (axis = 1 → u.2.1 = 0) ∧ (axis = 2 → u.2.2 = 0) ∧
      ∃ r > 0, (axis ≠ 0 → u.1 * r = x) ∧ (axis ≠ 1 → u.2.1 * r = y) ∧ (axis ≠ 2 → u.2.2 * r = z) := by
  intro u
  let a : ℝ := if axis = 0 then 0 else x
  let b : ℝ := if axis = 1 then 0 else y
  let c : ℝ := if axis = 2 then 0 else z
  have hu : u = (a / Real.sqrt (a * a + b * b + c * c), b / Real.sqrt (a * a + b * b + c * c),
    c / Real.sqrt (a * a + b * b + c * c)) := rfl
  have hpos : 0 < a * a + b * b + c * c := by
    rcases h with ⟨h1, h2⟩ | ⟨h1, h2⟩ | ⟨h1, h2⟩
    · have : a = x := if_neg h1
      have := mul_self_pos.2 (this ▸ h2)
      nlinarith [mul_self_nonneg b, mul_self_nonneg c]
    · have : b = y := if_neg h1
      have := mul_self_pos.2 (this ▸ h2)
      nlinarith [mul_self_nonneg a, mul_self_nonneg c]
    · have : c = z := if_neg h1
      have := mul_self_pos.2 (this ▸ h2)
      nlinarith [mul_self_nonneg a, mul_self_nonneg b]
  have hs := Real.sqrt_pos.2 hpos
  have hss := Real.mul_self_sqrt hpos.le
  generalize Real.sqrt (a * a + b * b + c * c) = r at hu hs hss
  rw [hu]
  refine ⟨?_, ?_, ?_, ?_, r, hs, ?_, ?_, ?_⟩
  · simp only
    rw [div_pow, div_pow, div_pow, ← add_div, ← add_div, div_eq_one_iff_eq (by positivity)]
    linarith [sq a, sq b, sq c, sq r]
  · intro h; simp [a, h]
  · intro h; simp [b, h]
  · intro h; simp [c, h]
  · intro h
    have : a = x := if_neg h
    simp only
    rw [div_mul_cancel₀ _ hs.ne', this]
  · intro h
    have : b = y := if_neg h
    simp only
    rw [div_mul_cancel₀ _ hs.ne', this]
  · intro h
    have : c = z := if_neg h
    simp only
    rw [div_mul_cancel₀ _ hs.ne', this]

example : (2 : ℤ) ≠ 0 ∧ (3 : ℝ) ≠ 0 := by norm_num

end Verif.Scripts
