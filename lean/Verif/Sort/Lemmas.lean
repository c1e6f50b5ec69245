import Verif.Sort.Model
import Verif.Sort.Spec

/-! Helper lemmas for `math/sort`. -/

namespace Verif.Sort

open Verif.Go

variable {α : Type} {gt : α → α → Bool}

/-- Moving the element at `k` into the hole at `j` and opening a hole at `k` is a rearrangement. -/
theorem set_move_perm (xs : List α) (j k : Nat) (v w : α) (hj : j < xs.length) (hk : k < xs.length)
    (hjk : j ≠ k) (hw : xs[k] = w) : ((xs.set j w).set k v).Perm (xs.set j v) := by
  have h := List.set_set_perm (as := xs.set j v) (i := j) (j := k) (by simpa using hj)
    (by simpa using hk)
  have e1 : (xs.set j v)[k]'(by simpa using hk) = w := by
    rw [List.getElem_set_ne hjk]; exact hw
  have e2 : (xs.set j v)[j]'(by simpa using hj) = v := by simp
  rw [e1, e2, List.set_set] at h
  exact h

theorem shellSift_perm (inc : Nat) (hinc : 0 < inc) (v : α) :
    ∀ (f j : Nat) (xs : List α), inc ≤ j → j < xs.length → j < f →
      ∃ ys, shellSift gt inc v f j xs = some ys ∧ ys.Perm (xs.set j v) := by
  intro f
  induction f with
  | zero => intro j xs _ _ h; omega
  | succ f ih =>
    intro j xs h1 h2 h3
    have hk : j - inc < xs.length := by omega
    have e : (j : Int) - inc = ((j - inc : Nat) : Int) := by omega
    simp only [shellSift, e, rd_of_lt hk, bind, Option.bind_some]
    by_cases hg : gt xs[j - inc] v
    · rw [if_pos hg, wr_natCast h2]
      simp only [Option.bind_some]
      have hp := set_move_perm xs j (j - inc) v (xs[j - inc]) h2 hk (by omega) rfl
      by_cases hlt : ((j - inc : Nat) : Int) < inc
      · rw [if_pos hlt, wr_natCast (by simpa using hk)]
        exact ⟨_, rfl, hp⟩
      · rw [if_neg hlt]
        obtain ⟨ys, e1, p1⟩ := ih (j - inc) (xs.set j xs[j - inc]) (by omega) (by simpa using hk)
          (by omega)
        exact ⟨ys, e1, p1.trans hp⟩
    · rw [if_neg hg, wr_natCast h2]
      exact ⟨_, rfl, List.Perm.refl _⟩

theorem shellPass_perm (inc : Nat) (hinc : 0 < inc) (xs : List α) :
    ∃ ys, shellPass gt inc xs = some ys ∧ ys.Perm xs := by
  unfold shellPass
  by_cases h : (xs.length : Int) ≤ inc
  · rw [forRange_empty h]; exact ⟨xs, rfl, List.Perm.refl _⟩
  · apply forRange_spec (fun _ ys => ys.Perm xs) (by omega) _ xs (List.Perm.refl _)
    intro j s hj1 hj2 hp
    obtain ⟨k, rfl⟩ := Int.eq_ofNat_of_zero_le (show 0 ≤ j by omega)
    have hl := hp.length_eq
    have hk : k < s.length := by omega
    simp only [rd_of_lt hk, bind, Option.bind_some]
    obtain ⟨ys, e1, p1⟩ := shellSift_perm (gt := gt) inc hinc s[k] (s.length + 1) k s (by omega) hk
      (by omega)
    refine ⟨ys, e1, p1.trans ?_⟩
    rw [List.set_getElem_self]
    exact hp

/-- The first `i` elements are in non-decreasing order. -/
def PrefixSorted (gt : α → α → Bool) (i : Nat) (xs : List α) : Prop :=
  ∀ a b x y, a < b → b < i → xs[a]? = some x → xs[b]? = some y → gt x y = false

theorem StrictWeak.irrefl (h : StrictWeak gt) (a : α) : gt a a = false := by
  cases e : gt a a
  · rfl
  · rw [h.asymm a a e] at e; exact absurd e (by simp)

/-- One step of insertion sort (gap 1). -/
theorem shellSift_one (hsw : StrictWeak gt) (v : α) (i : Nat) :
    ∀ (f j : Nat) (xs : List α), 1 ≤ j → j ≤ i → i < xs.length → j < f →
      (∀ a b x y, a < b → b ≤ i → a ≠ j → b ≠ j → xs[a]? = some x → xs[b]? = some y →
        gt x y = false) →
      (∀ b y, j < b → b ≤ i → xs[b]? = some y → gt v y = false) →
      ∃ ys, shellSift gt 1 v f j xs = some ys ∧ PrefixSorted gt (i + 1) ys := by
  intro f
  induction f with
  | zero => intro j xs _ _ _ h; omega
  | succ f ih =>
    intro j xs h1 hji hi hf hs hv
    have h2 : j < xs.length := by omega
    have hk : j - 1 < xs.length := by omega
    have e : (j : Int) - 1 = ((j - 1 : Nat) : Int) := by omega
    simp only [shellSift, e, rd_of_lt hk, bind, Option.bind_some]
    by_cases hg : gt xs[j - 1] v
    · rw [if_pos hg, wr_natCast h2]
      simp only [Option.bind_some]
      have hvw : gt v xs[j - 1] = false := hsw.asymm _ _ hg
      by_cases hlt : ((j - 1 : Nat) : Int) < 1
      · rw [if_pos hlt, wr_natCast (by simpa using hk)]
        refine ⟨_, rfl, ?_⟩
        have hj1 : j = 1 := by omega
        subst hj1
        intro a b x y hab hb hx hy
        simp only [Nat.sub_self] at hx hy
        have hb0 : b ≠ 0 := by omega
        rw [List.getElem?_set_ne (by omega)] at hy
        by_cases ha : a = 0
        · subst ha
          rw [List.getElem?_set_self (by simp; omega)] at hx
          cases hx
          by_cases hb1 : b = 1
          · subst hb1
            rw [List.getElem?_set_self (by omega)] at hy
            cases hy; exact hvw
          · rw [List.getElem?_set_ne (by omega)] at hy
            exact hv b y (by omega) (by omega) hy
        · rw [List.getElem?_set_ne (by omega)] at hx
          by_cases ha1 : a = 1
          · subst ha1
            rw [List.getElem?_set_self (by omega)] at hx
            rw [List.getElem?_set_ne (by omega)] at hy
            cases hx
            exact hs 0 b _ y (by omega) (by omega) (by omega) (by omega)
              (List.getElem?_eq_getElem hk) hy
          · rw [List.getElem?_set_ne (by omega)] at hx hy
            exact hs a b x y hab (by omega) (by omega) (by omega) hx hy
      · rw [if_neg hlt]
        apply ih (j - 1) (xs.set j xs[j - 1]) (by omega) (by omega) (by simpa using hi) (by omega)
        · intro a b x y hab hb haj hbj hx hy
          by_cases ha : a = j
          · subst ha
            rw [List.getElem?_set_self h2] at hx
            rw [List.getElem?_set_ne (by omega)] at hy
            cases hx
            exact hs (a - 1) b _ y (by omega) hb (by omega) (by omega)
              (List.getElem?_eq_getElem hk) hy
          · rw [List.getElem?_set_ne (by omega)] at hx
            by_cases hb' : b = j
            · subst hb'
              rw [List.getElem?_set_self h2] at hy
              cases hy
              exact hs a (b - 1) x _ (by omega) (by omega) ha (by omega) hx
                (List.getElem?_eq_getElem hk)
            · rw [List.getElem?_set_ne (by omega)] at hy
              exact hs a b x y hab hb ha hb' hx hy
        · intro b y hjb hb hy
          by_cases hb' : b = j
          · subst hb'
            rw [List.getElem?_set_self h2] at hy
            cases hy; exact hvw
          · rw [List.getElem?_set_ne (by omega)] at hy
            exact hv b y (by omega) hb hy
    · have hg' : gt xs[j - 1] v = false := by simpa using hg
      rw [if_neg hg, wr_natCast h2]
      refine ⟨_, rfl, ?_⟩
      intro a b x y hab hb hx hy
      by_cases ha : a = j
      · subst ha
        rw [List.getElem?_set_self h2] at hx
        rw [List.getElem?_set_ne (by omega)] at hy
        cases hx
        exact hv b y hab (by omega) hy
      · rw [List.getElem?_set_ne (by omega)] at hx
        by_cases hb' : b = j
        · subst hb'
          rw [List.getElem?_set_self h2] at hy
          cases hy
          by_cases ha' : a = b - 1
          · subst ha'
            rw [List.getElem?_eq_getElem hk] at hx
            cases hx; exact hg'
          · exact hsw.negTrans _ _ _
              (hs a (b - 1) x _ (by omega) (by omega) ha (by omega) hx
                (List.getElem?_eq_getElem hk)) hg'
        · rw [List.getElem?_set_ne (by omega)] at hy
          exact hs a b x y hab (by omega) ha hb' hx hy

theorem shellPass_one (hsw : StrictWeak gt) (xs : List α) (hn : 1 ≤ xs.length) :
    ∃ ys, shellPass gt 1 xs = some ys ∧ ys.length = xs.length ∧ PrefixSorted gt xs.length ys := by
  unfold shellPass
  obtain ⟨ys, e, hl, hp⟩ := forRange_spec
    (fun i (ys : List α) => ys.length = xs.length ∧ PrefixSorted gt i.toNat ys)
    (lo := ((1 : Nat) : Int)) (hi := xs.length) (by omega)
    (fun i xs => do
      let v ← rd xs i
      shellSift gt ((1 : Nat) : Int) v (xs.length + 1) i xs) xs
    (by
      refine ⟨rfl, ?_⟩
      intro a b x y hab hb; simp at hb; omega)
    (by
      intro j s hj1 hj2 hp
      obtain ⟨hl, hs⟩ := hp
      obtain ⟨k, rfl⟩ := Int.eq_ofNat_of_zero_le (show 0 ≤ j by omega)
      have hk : k < s.length := by omega
      simp only [rd_of_lt hk, bind, Option.bind_some]
      obtain ⟨ys, e1, p1⟩ := shellSift_perm (gt := gt) 1 (by omega) s[k] (s.length + 1) k s
        (by omega) hk (by omega)
      obtain ⟨zs, e2, p2⟩ := shellSift_one hsw s[k] k (s.length + 1) k s (by omega) (by omega) hk
        (by omega)
        (by
          intro a b x y hab hb ha hb' hx hy
          exact hs a b x y hab (by simp; omega) hx hy)
        (by intro b y h1 h2; omega)
      refine ⟨ys, e1, ?_, ?_⟩
      · rw [p1.length_eq]; simpa using hl
      · have : ys = zs := by
          have := e1.symm.trans e2
          simpa using this
        subst this
        have : ((k : Int) + 1).toNat = k + 1 := by omega
        rw [this]; exact p2)
  exact ⟨ys, e, hl, by simpa using hp⟩

theorem prefixSorted_all {xs : List α} (h : PrefixSorted gt xs.length xs) : NonDecreasing gt xs := by
  unfold NonDecreasing
  rw [List.pairwise_iff_getElem]
  intro i j hi hj hij
  exact h i j _ _ hij hj (List.getElem?_eq_getElem hi) (List.getElem?_eq_getElem hj)

/-- The gaps used by `Shell`: 1, 4, 13, 40, ... -/
inductive Gap : Nat → Prop
  | one : Gap 1
  | next {g : Nat} : Gap g → Gap (g * 3 + 1)

theorem Gap.pos {g : Nat} (h : Gap g) : 1 ≤ g := by cases h <;> omega

theorem growInc_gap (n : Nat) : ∀ inc, Gap inc → Gap (growInc n inc) ∧ n < growInc n inc := by
  intro inc
  induction inc using growInc.induct n with
  | case1 inc h ih =>
    intro hg
    rw [growInc, if_pos h]
    exact ih hg.next
  | case2 inc h =>
    intro hg
    rw [growInc, if_neg h]
    exact ⟨hg, by omega⟩

theorem shellLoop_perm {inc : Nat} (hg : Gap inc) :
    ∀ (xs : List α), ∃ ys, shellLoop gt inc xs = some ys ∧ ys.Perm xs := by
  induction hg with
  | one =>
    intro xs
    rw [shellLoop]
    exact ⟨xs, by simp, List.Perm.refl _⟩
  | @next g hg ih =>
    intro xs
    have := hg.pos
    rw [shellLoop, if_pos (by omega)]
    have e : (g * 3 + 1) / 3 = g := by omega
    rw [e]
    obtain ⟨ys, e, p⟩ := shellPass_perm (gt := gt) g hg.pos xs
    obtain ⟨zs, e2, p2⟩ := ih ys
    exact ⟨zs, by rw [e]; exact e2, p2.trans p⟩

theorem shellLoop_sorted (hsw : StrictWeak gt) {inc : Nat} (hg : Gap inc) :
    1 < inc → ∀ (xs ys : List α), 1 ≤ xs.length → shellLoop gt inc xs = some ys →
      NonDecreasing gt ys := by
  induction hg with
  | one => intro h; omega
  | @next g hg ih =>
    intro _ xs ys hx h
    have := hg.pos
    rw [shellLoop, if_pos (by omega)] at h
    have e : (g * 3 + 1) / 3 = g := by omega
    rw [e] at h
    by_cases h1 : g = 1
    · subst h1
      obtain ⟨zs, e1, l1, s1⟩ := shellPass_one hsw xs hx
      rw [e1, Option.bind_some, shellLoop] at h
      simp at h
      subst h
      rw [← l1] at s1
      exact prefixSorted_all s1
    · obtain ⟨zs, e1, p1⟩ := shellPass_perm (gt := gt) g hg.pos xs
      rw [e1, Option.bind_some] at h
      exact ih (by omega) zs ys (by rw [p1.length_eq]; exact hx) h

theorem Shell_perm (xs : List α) : ∃ ys, Shell gt xs = some ys ∧ ys.Perm xs := by
  unfold Shell
  split
  · exact ⟨xs, rfl, List.Perm.refl _⟩
  · exact shellLoop_perm (growInc_gap _ 1 .one).1 xs

theorem Shell_sorted (hsw : StrictWeak gt) (xs ys : List α) (h : Shell gt xs = some ys) :
    NonDecreasing gt ys := by
  unfold Shell at h
  split at h
  · cases h
    rename_i h1
    obtain ⟨x, rfl⟩ := List.length_eq_one_iff.mp h1
    simp [NonDecreasing]
  · rcases Nat.eq_zero_or_pos xs.length with h0 | h0
    · obtain ⟨zs, e, p⟩ := shellLoop_perm (gt := gt) (growInc_gap xs.length 1 .one).1 xs
      rw [e] at h
      cases h
      have : ys = [] := by
        rw [← List.length_eq_zero_iff, p.length_eq, h0]
      subst this
      simp [NonDecreasing]
    · have := growInc_gap xs.length 1 .one
      exact shellLoop_sorted hsw this.1 (by omega) xs ys h0 h

/-! ### partition -/

theorem sort3_spec (hsw : StrictWeak gt) (x y z : α) :
    let r := sort3 gt x y z
    gt r.2.2 r.2.1 = false ∧ gt r.2.1 r.1 = false ∧ [r.2.2, r.2.1, r.1].Perm [x, y, z] := by
  have sw3 : ∀ a b c : α, [a, b, c].Perm [b, a, c] := fun a b c => List.Perm.swap b a [c]
  have sw3' : ∀ a b c : α, [a, b, c].Perm [a, c, b] := fun a b c => (List.Perm.swap c b []).cons a
  unfold sort3
  have ha := hsw.asymm
  split
  · rename_i hxy
    split
    · rename_i hxz
      split
      · rename_i hyz
        refine ⟨ha _ _ hyz, ha _ _ hxy, ?_⟩
        exact ((sw3 z y x).trans (sw3' y z x)).trans ((sw3 y x z))
      · rename_i hyz
        refine ⟨by simpa using hyz, ha _ _ hxz, ?_⟩
        exact ((sw3' y z x).trans (sw3 y x z))
    · rename_i hxz
      refine ⟨ha _ _ hxy, by simpa using hxz, ?_⟩
      exact sw3 y x z
  · rename_i hxy
    split
    · rename_i hyz
      split
      · rename_i hxz
        refine ⟨ha _ _ hxz, by simpa using hxy, ?_⟩
        exact (sw3 z x y).trans (sw3' x z y)
      · rename_i hxz
        refine ⟨by simpa using hxz, ha _ _ hyz, ?_⟩
        exact sw3' x z y
    · rename_i hyz
      exact ⟨by simpa using hxy, by simpa using hyz, List.Perm.refl _⟩

theorem scanUp_spec (xs : List α) (mid : α) (s : Nat) (hs : s < xs.length)
    (hsen : gt mid xs[s] = false) :
    ∀ (f lo : Nat), lo ≤ s → s - lo < f →
      ∃ r : Nat, scanUp gt xs mid f lo = some (r : Int) ∧ lo ≤ r ∧ r ≤ s ∧
        (∀ x, xs[r]? = some x → gt mid x = false) ∧
        (∀ k x, lo ≤ k → k < r → xs[k]? = some x → gt mid x = true) := by
  intro f
  induction f with
  | zero => intro lo _ h; omega
  | succ f ih =>
    intro lo h1 h2
    have hl : lo < xs.length := by omega
    simp only [scanUp, rd_of_lt hl, bind, Option.bind_some]
    by_cases hg : gt mid xs[lo]
    · rw [if_pos hg]
      have hne : lo ≠ s := by
        intro h; subst h; rw [hsen] at hg; exact absurd hg (by simp)
      obtain ⟨r, e, h3, h4, h5, h6⟩ := ih (lo + 1) (by omega) (by omega)
      refine ⟨r, by push_cast at e; exact e, by omega, h4, h5, ?_⟩
      intro k x hk1 hk2 hx
      by_cases hk : k = lo
      · subst hk
        rw [List.getElem?_eq_getElem hl] at hx
        cases hx; exact hg
      · exact h6 k x (by omega) hk2 hx
    · rw [if_neg hg]
      refine ⟨lo, rfl, le_refl _, h1, ?_, ?_⟩
      · intro x hx
        rw [List.getElem?_eq_getElem hl] at hx
        cases hx; simpa using hg
      · intro k x h3 h4; omega

theorem scanDown_spec (xs : List α) (mid : α) (s : Nat) (hs : s < xs.length)
    (hsen : gt xs[s] mid = false) :
    ∀ (f hi : Nat), s ≤ hi → hi < xs.length → hi - s < f →
      ∃ r : Nat, scanDown gt xs mid f hi = some (r : Int) ∧ r ≤ hi ∧ s ≤ r ∧
        (∀ x, xs[r]? = some x → gt x mid = false) ∧
        (∀ k x, k ≤ hi → r < k → xs[k]? = some x → gt x mid = true) := by
  intro f
  induction f with
  | zero => intro hi _ _ h; omega
  | succ f ih =>
    intro hi h1 hl h2
    simp only [scanDown, rd_of_lt hl, bind, Option.bind_some]
    by_cases hg : gt xs[hi] mid
    · rw [if_pos hg]
      have hne : hi ≠ s := by
        intro h; subst h; rw [hsen] at hg; exact absurd hg (by simp)
      obtain ⟨r, e, h3, h4, h5, h6⟩ := ih (hi - 1) (by omega) (by omega) (by omega)
      have ec : ((hi - 1 : Nat) : Int) = (hi : Int) - 1 := by omega
      rw [ec] at e
      refine ⟨r, e, by omega, h4, h5, ?_⟩
      intro k x hk1 hk2 hx
      by_cases hk : k = hi
      · subst hk
        rw [List.getElem?_eq_getElem hl] at hx
        cases hx; exact hg
      · exact h6 k x (by omega) hk2 hx
    · rw [if_neg hg]
      refine ⟨hi, rfl, le_refl _, h1, ?_, ?_⟩
      · intro x hx
        rw [List.getElem?_eq_getElem hl] at hx
        cases hx; simpa using hg
      · intro k x h3 h4; omega

theorem swap_spec (xs : List α) (i j : Nat) (hi : i < xs.length) (hj : j < xs.length) :
    swap xs i j = some ((xs.set i xs[j]).set j xs[i]) := by
  simp only [swap, rd_of_lt hi, rd_of_lt hj, bind, Option.bind_some, wr_natCast hi]
  rw [wr_natCast (by simpa using hj)]

theorem swap_get (xs : List α) (i j k : Nat) (hi : i < xs.length) (hj : j < xs.length) :
    ((xs.set i xs[j]).set j xs[i])[k]? =
      if k = i then some xs[j] else if k = j then some xs[i] else xs[k]? := by
  by_cases h1 : k = j
  · subst h1
    rw [List.getElem?_set_self (by simpa using hj)]
    by_cases h2 : k = i
    · subst h2; simp
    · simp [h2]
  · rw [List.getElem?_set_ne (by omega)]
    by_cases h2 : k = i
    · subst h2; rw [List.getElem?_set_self hi]; simp
    · rw [List.getElem?_set_ne (by omega)]; simp [h1, h2]

/-- Everything up to `lo` is at most `mid`, everything from `hi` on is at least `mid`. -/
def Split (gt : α → α → Bool) (mid : α) (lo hi : Nat) (xs : List α) : Prop :=
  (∀ k x, k ≤ lo → xs[k]? = some x → gt x mid = false) ∧
  (∀ k x, hi ≤ k → xs[k]? = some x → gt mid x = false)

theorem partLoop_spec (hsw : StrictWeak gt) (mid : α) :
    ∀ (f lo hi : Nat) (xs : List α), 1 ≤ lo → lo ≤ hi → hi + 1 ≤ xs.length →
      (lo = hi → 2 ≤ lo ∧ hi + 2 ≤ xs.length) → hi - lo < f →
      xs[1]? = some mid → Split gt mid lo hi xs →
      ∃ (r : Nat) (ys : List α), partLoop gt mid f lo hi xs = some ((r : Int), ys) ∧
        ys.Perm xs ∧ 1 ≤ r ∧ r + 2 ≤ xs.length ∧ ys[1]? = some mid ∧ Split gt mid r (r + 1) ys := by
  intro f
  induction f with
  | zero => intro lo hi xs _ _ _ _ h; omega
  | succ f ih =>
    intro lo hi xs h1 h2 h3 h4 h5 hm hsp
    obtain ⟨hA, hB⟩ := hsp
    -- scan up
    obtain ⟨lo', elo, hlo1, hlo2, hlo3, hlo4⟩ :
        ∃ r : Nat, scanUp gt xs mid (xs.length + 1) ((lo : Int) + 1) = some (r : Int) ∧
          lo + 1 ≤ r ∧ r ≤ max hi (lo + 1) ∧ (∀ x, xs[r]? = some x → gt mid x = false) ∧
          (∀ k x, lo + 1 ≤ k → k < r → xs[k]? = some x → gt mid x = true) := by
      have hs : max hi (lo + 1) < xs.length := by
        rcases Nat.lt_or_ge lo hi with h | h
        · omega
        · have := h4 (by omega); omega
      obtain ⟨r, e, a, b, c, d⟩ := scanUp_spec (gt := gt) xs mid (max hi (lo + 1)) hs
        (hB _ _ (by omega) (List.getElem?_eq_getElem hs)) (xs.length + 1) (lo + 1) (by omega)
        (by omega)
      exact ⟨r, by push_cast at e; exact e, a, b, c, d⟩
    -- scan down
    obtain ⟨hi', ehi, hhi1, hhi2, hhi3, hhi4⟩ :
        ∃ r : Nat, scanDown gt xs mid (xs.length + 1) ((hi : Int) - 1) = some (r : Int) ∧
          r ≤ hi - 1 ∧ min lo (hi - 1) ≤ r ∧ (∀ x, xs[r]? = some x → gt x mid = false) ∧
          (∀ k x, k ≤ hi - 1 → r < k → xs[k]? = some x → gt x mid = true) := by
      have hs : min lo (hi - 1) < xs.length := by omega
      obtain ⟨r, e, a, b, c, d⟩ := scanDown_spec (gt := gt) xs mid (min lo (hi - 1)) hs
        (hA _ _ (by omega) (List.getElem?_eq_getElem hs)) (xs.length + 1) (hi - 1) (by omega)
        (by omega) (by omega)
      have ec : ((hi - 1 : Nat) : Int) = (hi : Int) - 1 := by
        rcases Nat.lt_or_ge lo hi with h | h
        · omega
        · have := h4 (by omega); omega
      rw [ec] at e
      exact ⟨r, e, a, b, c, d⟩
    have hhi_pos : 1 ≤ hi' := by
      rcases Nat.lt_or_ge lo hi with h | h
      · omega
      · have := h4 (by omega); omega
    have hhi_len : hi' + 2 ≤ xs.length := by
      rcases Nat.lt_or_ge lo hi with h | h
      · omega
      · have := h4 (by omega); omega
    simp only [partLoop, elo, ehi, bind, Option.bind_some]
    by_cases hbr : (hi' : Int) < lo'
    · rw [if_pos hbr]
      refine ⟨hi', xs, rfl, List.Perm.refl _, hhi_pos, hhi_len, hm, ?_, ?_⟩
      · intro k x hk hx
        by_cases hkl : k ≤ lo
        · exact hA k x hkl hx
        · exact hsw.asymm _ _ (hlo4 k x (by omega) (by omega) hx)
      · intro k x hk hx
        by_cases hkl : hi ≤ k
        · exact hB k x hkl hx
        · exact hsw.asymm _ _ (hhi4 k x (by omega) (by omega) hx)
    · rw [if_neg hbr]
      have hle : lo' ≤ hi' := by omega
      have hl1 : lo' < xs.length := by omega
      have hl2 : hi' < xs.length := by omega
      rw [swap_spec xs lo' hi' hl1 hl2]
      simp only [Option.bind_some]
      have hp := List.set_set_perm (as := xs) (i := lo') (j := hi') hl1 hl2
      have hlen : ((xs.set lo' xs[hi']).set hi' xs[lo']).length = xs.length := by simp
      obtain ⟨r, ys, e, p, q1, q2, q3, q4⟩ := ih lo' hi' ((xs.set lo' xs[hi']).set hi' xs[lo'])
        (by omega) hle (by rw [hlen]; omega) (by intro he; rw [hlen]; omega) (by omega)
        (by
          rw [swap_get xs lo' hi' 1 hl1 hl2]
          rw [if_neg (by omega), if_neg (by omega)]
          exact hm)
        (by
          constructor
          · intro k x hk hx
            rw [swap_get xs lo' hi' k hl1 hl2] at hx
            by_cases hk1 : k = lo'
            · rw [if_pos hk1] at hx
              cases hx
              exact hhi3 _ (List.getElem?_eq_getElem hl2)
            · rw [if_neg hk1, if_neg (by omega)] at hx
              by_cases hkl : k ≤ lo
              · exact hA k x hkl hx
              · exact hsw.asymm _ _ (hlo4 k x (by omega) (by omega) hx)
          · intro k x hk hx
            rw [swap_get xs lo' hi' k hl1 hl2] at hx
            by_cases hk1 : k = lo'
            · rw [if_pos hk1] at hx
              cases hx
              have : lo' = hi' := by omega
              subst this
              exact hlo3 _ (List.getElem?_eq_getElem hl2)
            · rw [if_neg hk1] at hx
              by_cases hk2 : k = hi'
              · rw [if_pos hk2] at hx
                cases hx
                exact hlo3 _ (List.getElem?_eq_getElem hl1)
              · rw [if_neg hk2] at hx
                by_cases hkl : hi ≤ k
                · exact hB k x hkl hx
                · exact hsw.asymm _ _ (hhi4 k x (by omega) (by omega) hx))
      refine ⟨r, ys, e, p.trans hp, q1, by rw [hlen] at q2; exact q2, q3, q4⟩

theorem count_set_add [DecidableEq α] (xs : List α) (i : Nat) (hi : i < xs.length) (a x : α) :
    (xs.set i a).count x + (if xs[i] == x then 1 else 0) =
      xs.count x + (if a == x then 1 else 0) := by
  rw [List.count_set hi]
  by_cases h : xs[i] = x
  · have : 0 < xs.count x := by
      rw [List.count_pos_iff, ← h]; exact List.getElem_mem hi
    simp only [h, beq_self_eq_true, if_true]; omega
  · simp [h]

theorem set3_perm (xs : List α) (i j k : Nat) (hi : i < xs.length) (hj : j < xs.length)
    (hk : k < xs.length) (hij : i ≠ j) (hik : i ≠ k) (hjk : j ≠ k) (a b c : α)
    (hp : [a, b, c].Perm [xs[i], xs[j], xs[k]]) :
    (((xs.set i a).set j b).set k c).Perm xs := by
  classical
  rw [List.perm_iff_count] at hp ⊢
  intro x
  have h := hp x
  have h1 := count_set_add xs i hi a x
  have h2 := count_set_add (xs.set i a) j (by simpa using hj) b x
  have h3 := count_set_add ((xs.set i a).set j b) k (by simpa using hk) c x
  rw [List.getElem_set_ne hij] at h2
  rw [List.getElem_set_ne hjk, List.getElem_set_ne hik] at h3
  simp only [List.count_cons, List.count_nil, Nat.zero_add] at h
  omega

/-- What `partition` guarantees on slices of length at least four. -/
theorem partition_spec (hsw : StrictWeak gt) (xs : List α) (hn : 4 ≤ xs.length) :
    ∃ (piv : Nat) (ys : List α) (mid : α), partition gt xs = some ((piv : Int), ys) ∧
      ys.Perm xs ∧ 1 ≤ piv ∧ piv + 2 ≤ xs.length ∧ ys[piv]? = some mid ∧
      (∀ x ∈ ys.take piv, gt x mid = false) ∧ (∀ x ∈ ys.drop piv, gt mid x = false) := by
  have h0 : 0 < xs.length := by omega
  have h2 : xs.length / 2 < xs.length := by omega
  have h3 : xs.length - 1 < xs.length := by omega
  obtain ⟨hs1, hs2, hs3⟩ := sort3_spec hsw xs[0] xs[xs.length / 2] xs[xs.length - 1]
  generalize hr : sort3 gt xs[0] xs[xs.length / 2] xs[xs.length - 1] = r at hs1 hs2 hs3
  obtain ⟨mx, md, mn⟩ := r
  simp only at hs1 hs2 hs3
  -- the slice after storing the three values
  obtain ⟨A, hA⟩ : ∃ A, A = ((xs.set 0 mn).set (xs.length / 2) md).set (xs.length - 1) mx :=
    ⟨_, rfl⟩
  have hAlen : A.length = xs.length := by simp [hA]
  have hAperm : A.Perm xs := by
    rw [hA]
    exact set3_perm xs 0 (xs.length / 2) (xs.length - 1) h0 h2 h3 (by omega) (by omega) (by omega)
      mn md mx hs3
  have hA0 : A[0]? = some mn := by
    rw [hA, List.getElem?_set_ne (by omega), List.getElem?_set_ne (by omega),
      List.getElem?_set_self h0]
  have hAm : A[xs.length / 2]? = some md := by
    rw [hA, List.getElem?_set_ne (by omega), List.getElem?_set_self (by simpa using h2)]
  have hAx : A[xs.length - 1]? = some mx := by
    rw [hA, List.getElem?_set_self (by simpa using h3)]
  have hA1 : 1 < A.length := by omega
  have hA2 : xs.length / 2 < A.length := by omega
  obtain ⟨B, hB⟩ : ∃ B, B = (A.set 1 A[xs.length / 2]).set (xs.length / 2) A[1] := ⟨_, rfl⟩
  have hBlen : B.length = xs.length := by simp [hB, hAlen]
  have hBperm : B.Perm A := by
    rw [hB]; exact List.set_set_perm hA1 hA2
  have hAm' : A[xs.length / 2] = md := by
    rw [List.getElem?_eq_getElem hA2] at hAm; simpa using hAm
  have hB0 : B[0]? = some mn := by
    rw [hB, swap_get A 1 _ 0 hA1 hA2, if_neg (by omega), if_neg (by omega)]; exact hA0
  have hB1 : B[1]? = some md := by
    rw [hB, swap_get A 1 _ 1 hA1 hA2, if_pos rfl, hAm']
  have hBx : B[xs.length - 1]? = some mx := by
    rw [hB, swap_get A 1 _ _ hA1 hA2, if_neg (by omega), if_neg (by omega)]; exact hAx
  obtain ⟨r, C, e, p, q1, q2, q3, q4, q5⟩ := partLoop_spec hsw md (B.length + 1) 1 (xs.length - 1) B
    (by omega) (by omega) (by omega) (by omega) (by omega) hB1
    (by
      constructor
      · intro k x hk hx
        rcases (by omega : k = 0 ∨ k = 1) with h | h
        · subst h; rw [hB0] at hx; cases hx; exact hs1
        · subst h; rw [hB1] at hx; cases hx; exact hsw.irrefl _
      · intro k x hk hx
        have : k < B.length := (List.getElem?_eq_some_iff.mp hx).1
        have : k = xs.length - 1 := by omega
        subst this
        rw [hBx] at hx; cases hx; exact hs2)
  have hClen : C.length = xs.length := by rw [p.length_eq, hBlen]
  have hC1 : 1 < C.length := by omega
  have hCr : r < C.length := by omega
  have hC1' : C[1] = md := by
    rw [List.getElem?_eq_getElem hC1] at q3; simpa using q3
  have hget := fun k => swap_get C 1 r k hC1 hCr
  refine ⟨r, (C.set 1 C[r]).set r C[1], md, ?_, ?_, q1, by omega, ?_, ?_, ?_⟩
  · have en : ((xs.length : Int) - 1) = ((xs.length - 1 : Nat) : Int) := by omega
    unfold partition
    simp only [bind]
    have e0 : rd xs 0 = some xs[0] := rd_of_lt h0
    rw [en, e0, rd_of_lt h2, rd_of_lt h3]
    simp only [Option.bind_some, hr]
    have w0 : wr xs 0 mn = some (xs.set 0 mn) := wr_natCast h0
    rw [w0]
    simp only [Option.bind_some]
    rw [wr_natCast (by simpa using h2)]
    simp only [Option.bind_some]
    rw [wr_natCast (by simpa using h3), ← hA]
    simp only [Option.bind_some]
    have sw1 : swap A 1 ((xs.length / 2 : Nat) : Int) = some B := by
      rw [hB]; exact swap_spec A 1 _ hA1 hA2
    rw [sw1]
    simp only [Option.bind_some]
    have e' : partLoop gt md (B.length + 1) 1 ((xs.length - 1 : Nat) : Int) B = some ((r : Int), C) := e
    rw [e']
    simp only [Option.bind_some]
    have sw2 : swap C 1 (r : Int) = some ((C.set 1 C[r]).set r C[1]) := swap_spec C 1 r hC1 hCr
    rw [sw2]
    rfl
  · exact ((List.set_set_perm hC1 hCr).trans p).trans (hBperm.trans hAperm)
  · rw [hget]
    by_cases h : r = 1
    · subst h; simp [hC1']
    · rw [if_neg h, if_pos rfl, hC1']
  · intro x hx
    rw [List.mem_take_iff_getElem] at hx
    obtain ⟨k, hk, hx⟩ := hx
    have hx' : ((C.set 1 C[r]).set r C[1])[k]? = some x := by
      rw [List.getElem?_eq_getElem (by omega)]; rw [hx]
    rw [hget] at hx'
    have hkr : k < r := by omega
    by_cases h1 : k = 1
    · rw [if_pos h1] at hx'; cases hx'
      exact q4 r _ (le_refl _) (List.getElem?_eq_getElem hCr)
    · rw [if_neg h1, if_neg (by omega)] at hx'
      exact q4 k x (by omega) hx'
  · intro x hx
    rw [List.mem_drop_iff_getElem] at hx
    obtain ⟨k, hk, hx⟩ := hx
    have hx' : ((C.set 1 C[r]).set r C[1])[r + k]? = some x := by
      rw [List.getElem?_eq_getElem (by omega)]; rw [hx]
    rw [hget] at hx'
    by_cases h1 : r + k = r
    · by_cases h2 : r = 1
      · have hk0 : k = 0 := by omega
        subst hk0; subst h2
        simp [hC1'] at hx'
        subst hx'; exact hsw.irrefl _
      · rw [if_neg (by omega), if_pos h1, hC1'] at hx'
        cases hx'; exact hsw.irrefl _
    · rw [if_neg (by omega), if_neg (by omega)] at hx'
      exact q5 (r + k) x (by omega) hx'

end Verif.Sort
