import Verif.Sort.Lemmas

/-! Helper lemmas for `Quick`, `NthLargest` and `Reverse`. -/

namespace Verif.Sort

open Verif.Go

variable {α : Type} {gt : α → α → Bool}

theorem quickFuel_spec (hsw : StrictWeak gt) :
    ∀ (f : Nat) (xs : List α), xs.length < f →
      ∃ ys, quickFuel gt f xs = some ys ∧ ys.Perm xs ∧ NonDecreasing gt ys := by
  intro f
  induction f with
  | zero => intro xs h; omega
  | succ f ih =>
    intro xs hf
    rw [quickFuel]
    by_cases h : xs.length < manualLen
    · rw [if_pos h]
      obtain ⟨ys, e, p⟩ := Shell_perm (gt := gt) xs
      exact ⟨ys, e, p, Shell_sorted hsw xs ys e⟩
    · rw [if_neg h]
      unfold manualLen at h
      obtain ⟨piv, ys, mid, e, p, h1, h2, h3, h4, h5⟩ := partition_spec hsw xs (by omega)
      have hl := p.length_eq
      obtain ⟨as, ea, pa, sa⟩ := ih (ys.take piv) (by simp; omega)
      obtain ⟨bs, eb, pb, sb⟩ := ih (ys.drop piv) (by simp; omega)
      refine ⟨as ++ bs, ?_, ?_, ?_⟩
      · rw [e]
        simp only [bind, Option.bind_some, Int.toNat_natCast, ea, eb]
      · refine (pa.append pb).trans ?_
        rw [List.take_append_drop]; exact p
      · unfold NonDecreasing at *
        rw [List.pairwise_append]
        refine ⟨sa, sb, ?_⟩
        intro a ha b hb
        exact hsw.negTrans _ _ _ (h4 a (pa.mem_iff.mp ha)) (h5 b (pb.mem_iff.mp hb))

theorem isNthLargest_perm {xs ys : List α} (p : xs.Perm ys) {n : Nat} {v : α}
    (h : IsNthLargest gt xs n v) : IsNthLargest gt ys n v := by
  obtain ⟨h1, h2, h3⟩ := h
  exact ⟨p.mem_iff.mp h1, by rw [← p.countP_eq]; exact h2, by rw [← p.countP_eq]; exact h3⟩

theorem nth_two (hsw : StrictWeak gt) (a b : α) (h : gt a b = false) :
    IsNthLargest gt [a, b] 1 b ∧ IsNthLargest gt [a, b] 2 a := by
  have ha := hsw.irrefl a
  have hb := hsw.irrefl b
  constructor
  · refine ⟨by simp, ?_, ?_⟩
    · simp [h, hb]
    · simp [hb, List.countP_cons]
  · refine ⟨by simp, ?_, ?_⟩
    · simp only [List.countP_cons, List.countP_nil, ha]
      split <;> simp
    · simp [ha, h]

theorem nth_three (hsw : StrictWeak gt) (a b c : α) (h1 : gt a b = false) (h2 : gt b c = false) :
    IsNthLargest gt [a, b, c] 1 c ∧ IsNthLargest gt [a, b, c] 2 b ∧ IsNthLargest gt [a, b, c] 3 a := by
  have ha := hsw.irrefl a
  have hb := hsw.irrefl b
  have hc := hsw.irrefl c
  have hac := hsw.negTrans a b c h1 h2
  refine ⟨⟨by simp, ?_, ?_⟩, ⟨by simp, ?_, ?_⟩, ⟨by simp, ?_, ?_⟩⟩
  · simp [hac, h2, hc]
  · simp [List.countP_cons, hc]; omega
  · simp only [List.countP_cons, List.countP_nil, h1, hb]
    split <;> simp
  · simp [List.countP_cons, hb, h2]
  · simp only [List.countP_cons, List.countP_nil, ha]
    split <;> split <;> simp
  · simp [ha, h1, hac]

theorem nthLargestFuel_spec (hsw : StrictWeak gt) :
    ∀ (f : Nat) (xs : List α) (n : Nat), xs.length < f → 1 ≤ n → n ≤ xs.length →
      ∃ v, nthLargestFuel gt f xs n = some v ∧ IsNthLargest gt xs n v := by
  intro f
  induction f with
  | zero => intro xs n h; omega
  | succ f ih =>
    intro xs n hf hn1 hn2
    match xs, hf, hn2 with
    | [], _, h => simp at h; omega
    | [x], _, h =>
      refine ⟨x, rfl, ?_⟩
      have : n = 1 := by simp at h; omega
      subst this
      have hx := hsw.irrefl x
      exact ⟨by simp, by simp [hx], by simp [hx]⟩
    | [x, y], _, h =>
      simp only [List.length_cons, List.length_nil] at h
      have hn : n = 1 ∨ n = 2 := by omega
      simp only [nthLargestFuel]
      rw [if_pos (by omega)]
      by_cases hg : gt x y
      · rw [if_pos hg]
        obtain ⟨k1, k2⟩ := nth_two hsw y x (hsw.asymm _ _ hg)
        have pp : [y, x].Perm [x, y] := List.Perm.swap x y []
        rcases hn with rfl | rfl
        · exact ⟨x, rfl, isNthLargest_perm pp k1⟩
        · exact ⟨y, rfl, isNthLargest_perm pp k2⟩
      · rw [if_neg hg]
        obtain ⟨k1, k2⟩ := nth_two hsw x y (by simpa using hg)
        rcases hn with rfl | rfl
        · exact ⟨y, rfl, k1⟩
        · exact ⟨x, rfl, k2⟩
    | [x, y, z], _, h =>
      simp only [List.length_cons, List.length_nil] at h
      have hn : n = 1 ∨ n = 2 ∨ n = 3 := by omega
      simp only [nthLargestFuel]
      obtain ⟨s1, s2, s3⟩ := sort3_spec hsw x y z
      generalize sort3 gt x y z = r at *
      obtain ⟨hi, md, lo⟩ := r
      simp only at *
      obtain ⟨k1, k2, k3⟩ := nth_three hsw lo md hi s1 s2
      rcases hn with rfl | rfl | rfl
      · exact ⟨hi, rfl, isNthLargest_perm s3 k1⟩
      · exact ⟨md, rfl, isNthLargest_perm s3 k2⟩
      · exact ⟨lo, rfl, isNthLargest_perm s3 k3⟩
    | x :: y :: z :: w :: t, hf, h =>
      obtain ⟨piv, ys, mid, e, p, h1, h2, h3, h4, h5⟩ :=
        partition_spec hsw (x :: y :: z :: w :: t) (by simp)
      generalize hxs : x :: y :: z :: w :: t = xs at *
      have hl := p.length_eq
      have hunf : nthLargestFuel gt (f + 1) xs (n : Int) = (do
          let (piv, ys) ← partition gt xs
          let nPiv : Int := ys.length - piv
          if nPiv > (n : Int) then nthLargestFuel gt f (ys.drop piv.toNat) n
          else if nPiv < (n : Int) then nthLargestFuel gt f (ys.take piv.toNat) (n - nPiv)
          else rd ys piv) := by
        rw [← hxs]; rfl
      rw [hunf, e]
      simp only [bind, Option.bind_some, Int.toNat_natCast]
      have hsplit : ys = ys.take piv ++ ys.drop piv := (List.take_append_drop piv ys).symm
      have hcg : ∀ q : α → Bool, ys.countP q = (ys.take piv).countP q + (ys.drop piv).countP q := by
        intro q; conv_lhs => rw [hsplit]
        rw [List.countP_append]
      have hdl : (ys.drop piv).length = ys.length - piv := by simp
      by_cases c1 : ((ys.length : Int) - piv) > n
      · rw [if_pos c1]
        obtain ⟨v, ev, v1, v2, v3⟩ := ih (ys.drop piv) n (by omega) hn1 (by omega)
        refine ⟨v, ev, isNthLargest_perm p ⟨List.mem_of_mem_drop v1, ?_, ?_⟩⟩
        · have : (ys.take piv).countP (fun x => gt x v) = 0 := by
            rw [List.countP_eq_zero]
            intro a ha
            have := hsw.negTrans _ _ _ (h4 a ha) (h5 v v1)
            simp [this]
          rw [hcg]; omega
        · rw [hcg]; omega
      · rw [if_neg c1]
        by_cases c2 : ((ys.length : Int) - piv) < n
        · rw [if_pos c2]
          obtain ⟨v, ev, v1, v2, v3⟩ := ih (ys.take piv) (n - (ys.length - piv))
            (by simp; omega) (by omega) (by simp; omega)
          have ec : ((n - (ys.length - piv) : Nat) : Int) = (n : Int) - ((ys.length : Int) - piv) := by
            omega
          rw [ec] at ev
          refine ⟨v, ev, isNthLargest_perm p ⟨List.mem_of_mem_take v1, ?_, ?_⟩⟩
          · have : (ys.drop piv).countP (fun x => gt x v) ≤ (ys.drop piv).length :=
              List.countP_le_length
            rw [hcg]; omega
          · have : (ys.drop piv).countP (fun x => !gt v x) = (ys.drop piv).length := by
              rw [List.countP_eq_length]
              intro a ha
              have := hsw.negTrans _ _ _ (h4 v v1) (h5 a ha)
              simp [this]
            rw [hcg]; omega
        · rw [if_neg c2, rd_natCast, h3]
          have hm : mid ∈ ys.drop piv := by
            rw [List.mem_drop_iff_getElem]
            obtain ⟨q1, q2⟩ := List.getElem?_eq_some_iff.mp h3
            exact ⟨0, by omega, by simpa using q2⟩
          refine ⟨mid, rfl, isNthLargest_perm p ⟨List.mem_of_mem_drop hm, ?_, ?_⟩⟩
          · have z1 : (ys.take piv).countP (fun x => gt x mid) = 0 := by
              rw [List.countP_eq_zero]
              intro a ha
              simp [h4 a ha]
            have z2 : (ys.drop piv).countP (fun x => gt x mid) < (ys.drop piv).length := by
              rcases Nat.lt_or_ge ((ys.drop piv).countP (fun x => gt x mid)) (ys.drop piv).length
                with h | h
              · exact h
              · have := List.countP_eq_length.mp
                  (le_antisymm List.countP_le_length h) mid hm
                simp [hsw.irrefl mid] at this
            rw [hcg]; omega
          · have : (ys.drop piv).countP (fun x => !gt mid x) = (ys.drop piv).length := by
              rw [List.countP_eq_length]
              intro a ha
              simp [h5 a ha]
            rw [hcg]; omega

/-- Rank 0 is never found in a slice of at least two elements. -/
theorem nthLargestFuel_zero (hsw : StrictWeak gt) :
    ∀ (f : Nat) (xs : List α), 2 ≤ xs.length → nthLargestFuel gt f xs 0 = none := by
  intro f
  induction f with
  | zero => intro xs _; rfl
  | succ f ih =>
    intro xs hn
    match xs, hn with
    | [x, y], _ =>
      simp only [nthLargestFuel]
      by_cases hg : gt x y <;> simp [hg, rd]
    | [x, y, z], _ => simp [nthLargestFuel]
    | x :: y :: z :: w :: t, _ =>
      obtain ⟨piv, ys, mid, e, p, h1, h2, h3, h4, h5⟩ :=
        partition_spec hsw (x :: y :: z :: w :: t) (by simp)
      have hl := p.length_eq
      simp only [nthLargestFuel, e, bind, Option.bind_some, Int.toNat_natCast]
      rw [if_pos (by omega)]
      exact ih _ (by simp only [List.length_drop]; omega)

theorem Reverse_spec (xs : List α) : Reverse xs = some xs.reverse := by
  unfold Reverse
  simp only
  obtain ⟨ys, e, hl, h⟩ := forRange_spec
    (fun i (ys : List α) => ys.length = xs.length ∧ ∀ k : Nat, k < xs.length →
      ys[k]? = if (k : Int) < i ∨ (xs.length : Int) - 1 - i < k then xs[xs.length - 1 - k]? else xs[k]?)
    (lo := 0) (hi := ((xs.length / 2 : Nat) : Int)) (by omega)
    (fun i xs' => do
      let a ← rd xs' ((xs.length : Int) - 1 - i)
      let b ← rd xs' i
      let xs' ← wr xs' i a
      wr xs' ((xs.length : Int) - 1 - i) b) xs
    (by
      refine ⟨rfl, ?_⟩
      intro k hk
      rw [if_neg (by omega)])
    (by
      intro j s hj1 hj2 hI
      obtain ⟨hl, hI⟩ := hI
      obtain ⟨i, rfl⟩ := Int.eq_ofNat_of_zero_le hj1
      have e1 : (xs.length : Int) - 1 - i = ((xs.length - 1 - i : Nat) : Int) := by omega
      have b1 : xs.length - 1 - i < s.length := by omega
      have b2 : i < s.length := by omega
      rw [e1]
      simp only [rd_of_lt b1, rd_of_lt b2, bind, Option.bind_some, wr_natCast b2]
      rw [wr_natCast (by simpa using b1)]
      refine ⟨_, rfl, by simpa using hl, ?_⟩
      intro k hk
      rw [swap_get s i (xs.length - 1 - i) k b2 b1]
      have g1 : some s[xs.length - 1 - i] = xs[xs.length - 1 - i]? := by
        rw [← List.getElem?_eq_getElem b1, hI _ (by omega), if_neg (by omega)]
      have g2 : some s[i] = xs[i]? := by
        rw [← List.getElem?_eq_getElem b2, hI _ (by omega), if_neg (by omega)]
      by_cases k1 : k = i
      · rw [if_pos k1, if_pos (by omega), g1, k1]
      · rw [if_neg k1]
        by_cases k2 : k = xs.length - 1 - i
        · rw [if_pos k2, if_pos (by omega), g2]
          congr 1; omega
        · rw [if_neg k2, hI k hk]
          by_cases c : (k : Int) < i ∨ (xs.length : Int) - 1 - i < k
          · rw [if_pos c, if_pos (by omega)]
          · rw [if_neg c, if_neg (by omega)])
  rw [e]
  congr 1
  apply List.ext_getElem?
  intro k
  by_cases hk : k < xs.length
  · rw [h k hk, List.getElem?_reverse hk]
    by_cases c : (k : Int) < ((xs.length / 2 : Nat) : Int) ∨
        (xs.length : Int) - 1 - ((xs.length / 2 : Nat) : Int) < k
    · rw [if_pos c]
    · rw [if_neg c]; congr 1; omega
  · rw [List.getElem?_eq_none (by omega), List.getElem?_eq_none (by simp; omega)]

end Verif.Sort
