import Verif.Rand.Lemmas
import Verif.Rand.Spec

/-! Block draws and the Tausworthe ring buffer. -/

namespace Verif.Rand

open Verif.Go

theorem draws_length {S : Type} (next : S → Option (S × ℚ)) :
    ∀ n s s' vs, draws next n s = some (s', vs) → vs.length = n := by
  intro n
  induction n with
  | zero => intro s s' vs h; simp [draws] at h; simp [← h.2]
  | succ n ih =>
    intro s s' vs h
    simp only [draws, bind, Option.bind_eq_some_iff] at h
    obtain ⟨⟨s1, v⟩, e1, ⟨s2, ws⟩, e2, h⟩ := h
    simp at h
    rw [← h.2]; simp [ih _ _ _ e2]

theorem draws_add {S : Type} (next : S → Option (S × ℚ)) :
    ∀ n m s, draws next (n + m) s = (draws next n s).bind
      (fun r => (draws next m r.1).map (fun q => (q.1, r.2 ++ q.2))) := by
  intro n
  induction n with
  | zero => intro m s; simp [draws]
  | succ n ih =>
    intro m s
    rw [show n + 1 + m = (n + m) + 1 by omega]
    simp only [draws, bind]
    cases next s with
    | none => rfl
    | some r =>
      simp only [Option.bind_some]
      rw [ih]
      cases draws next n r.1 with
      | none => rfl
      | some q =>
        simp only [Option.bind_some]
        cases draws next m q.1 with
        | none => rfl
        | some u => simp

theorem take_append_of_get {t t' : List ℚ} {i : Nat} {v : ℚ} (hv : t'[i]? = some v) (ho : ∀ j, j ≠ i → t'[j]? = t[j]?) :
    t'.take (i + 1) = t.take i ++ [v] := by
  rw [List.take_add_one, hv]
  congr 1
  apply List.ext_getElem?
  intro j
  by_cases hj : j < i
  · rw [List.getElem?_take_of_lt hj, List.getElem?_take_of_lt hj, ho j (by omega)]
  · rw [List.getElem?_take_eq_none (by omega), List.getElem?_take_eq_none (by omega)]

theorem Xor.draws_isSome : ∀ n (g : Xor), ¬ g.Zero →
    ∃ g' vs, draws Xor.next n g = some (g', vs) ∧ ¬ g'.Zero ∧ ∀ v ∈ vs, 0 ≤ v ∧ v < 1 := by
  intro n
  induction n with
  | zero => intro g h; exact ⟨g, [], rfl, h, by simp⟩
  | succ n ih =>
    intro g h
    obtain ⟨g1, v, e, h1, h2⟩ := Xor.next_isSome h
    obtain ⟨g2, vs, e2, h3, h4⟩ := ih g1 h1
    refine ⟨g2, v :: vs, ?_, h3, ?_⟩
    · simp [draws, e, e2]
    · intro w hw
      rcases List.mem_cons.mp hw with rfl | hw
      · exact h2
      · exact h4 w hw

theorem Xor.seqLoop_draws : ∀ (m i : Nat) (g g' : Xor) (t vs : List ℚ), i + m = t.length →
    ¬ g.Zero → draws Xor.next m g = some (g', vs) →
    Xor.seqLoop (4 * m) i g t = some (g', t.take i ++ vs) := by
  intro m
  induction m with
  | zero =>
    intro i g g' t vs hi _ h
    simp [draws] at h
    obtain ⟨rfl, rfl⟩ := h
    simp only [Xor.seqLoop]
    rw [if_neg (by omega)]
    simp [← hi]
  | succ m ih =>
    intro i g g' t vs hi hz h
    simp only [draws, bind, Option.bind_eq_some_iff] at h
    obtain ⟨⟨g1, v⟩, e1, ⟨g2, ws⟩, e2, h⟩ := h
    simp at h
    obtain ⟨rfl, rfl⟩ := h
    simp only at e2
    obtain ⟨g1', v', e1', hz1, _⟩ := Xor.next_isSome hz
    rw [e1] at e1'
    simp at e1'
    obtain ⟨rfl, rfl⟩ := e1'
    obtain ⟨t', l1, l2, l3, l4⟩ := Xor.seqLoop_one 4 (4 * m) i g g1 v t (by omega) e1
    have := ih (i + 1) g1 g2 t' ws (by omega) hz1 e2
    have r := l4 _ this
    rw [show 4 * (m + 1) = 4 + 4 * m by omega]
    rw [r, take_append_of_get l2 l3]
    simp

/-! ### Tausworthe -/

theorem Taus.seqBody_eq (i : Int) (g : Taus) (t : List ℚ) :
    Taus.seqBody i (g, t) = g.next.bind (fun r => (wr t i r.2).map (fun t' => (r.1, t'))) := by
  unfold Taus.seqBody Taus.next
  simp only [bind]
  cases rd g.seq g.firstFollower with
  | none => rfl
  | some a =>
    simp only [Option.bind_some]
    cases rd g.seq g.secondFollower with
    | none => rfl
    | some b =>
      simp only [Option.bind_some]
      cases wr g.seq g.leader (if a - b < 0 then a - b + 1 else a - b) with
      | none => rfl
      | some s =>
        simp only [Option.bind_some]
        cases wr t i (if a - b < 0 then a - b + 1 else a - b) with
        | none => rfl
        | some t' => rfl

theorem Taus.seq_draws : ∀ (m i : Nat) (g : Taus) (t : List ℚ), i + m = t.length →
    forRange i t.length Taus.seqBody (g, t) =
      (draws Taus.next m g).map (fun r => (r.1, t.take i ++ r.2)) := by
  intro m
  induction m with
  | zero =>
    intro i g t h
    rw [forRange_empty (by omega)]
    simp [draws, ← h]
  | succ m ih =>
    intro i g t h
    rw [forRange_step (by omega), Taus.seqBody_eq]
    simp only [draws, bind]
    cases g.next with
    | none => rfl
    | some r =>
      simp only [Option.bind_some]
      have hi : i < t.length := by omega
      rw [wr_natCast hi]
      simp only [Option.map_some, Option.bind_some]
      have := ih (i + 1) r.1 (t.set i r.2) (by simp; omega)
      simp only [List.length_set] at this
      push_cast at this
      rw [this]
      have ht := take_append_of_get (t' := t.set i r.2) (v := r.2)
        (List.getElem?_set_self hi) (fun j hj => List.getElem?_set_ne (by omega))
      rw [ht]
      cases draws Taus.next m r.1 with
      | none => rfl
      | some q => simp

/-- The ring after `n` draws: index `(d - n) mod L` holds value number `n - d`. -/
structure Taus.Ring (init : Nat → ℚ) (n : Nat) (g : Taus) : Prop where
  len : g.seq.length = tauswortheSeqLen
  leader : g.leader = (-(n : Int)) % 9689
  first : g.firstFollower = (2444 - (n : Int)) % 9689
  second : g.secondFollower = (4187 - (n : Int)) % 9689
  slots : ∀ d : Int, 1 ≤ d → d < 9689 →
    g.seq[((d - (n : Int)) % 9689).toNat]? = some (laggedZ 2444 4187 init (n - d))

theorem fract_diff {a b : ℚ} (ha : 0 ≤ a ∧ a < 1) (hb : 0 ≤ b ∧ b < 1) :
    (if a - b < 0 then a - b + 1 else a - b) = Int.fract (a - b) := by
  split
  · rename_i h
    rw [eq_comm, Int.fract_eq_iff]
    refine ⟨by linarith [hb.2], by linarith, -1, by push_cast; ring⟩
  · rename_i h
    push Not at h
    rw [eq_comm, Int.fract_eq_iff]
    refine ⟨h, by linarith [ha.2], 0, by push_cast; ring⟩

theorem lagged_range (a b : Nat) (init : Nat → ℚ) (n : Nat) :
    0 ≤ lagged a b init n ∧ lagged a b init n < 1 := by
  rw [lagged]
  exact ⟨Int.fract_nonneg _, Int.fract_lt_one _⟩

theorem laggedZ_range {a b : Nat} {init : Nat → ℚ} (hi : ∀ k, 0 < k → k < 9689 → 0 ≤ init k ∧ init k < 1)
    (n : Int) (hn : -9689 < n) : 0 ≤ laggedZ a b init n ∧ laggedZ a b init n < 1 := by
  unfold laggedZ
  split
  · exact lagged_range _ _ _ _
  · exact hi _ (by omega) (by omega)

theorem lagged_rec (a b : Nat) (ha : 0 < a) (hb : 0 < b) (init : Nat → ℚ) (n : Nat) :
    lagged a b init n =
      Int.fract (laggedZ a b init ((n : Int) - a) - laggedZ a b init ((n : Int) - b)) := by
  have key : ∀ lag : Nat, 0 < lag →
      (if h : 0 < lag ∧ lag ≤ n then lagged a b init (n - lag) else init (lag - n)) =
        laggedZ a b init ((n : Int) - lag) := by
    intro lag hl
    unfold laggedZ
    by_cases h : lag ≤ n
    · rw [dif_pos ⟨hl, h⟩, if_pos (by omega)]; congr 1; omega
    · rw [dif_neg (by omega), if_neg (by omega)]; congr 1; omega
  rw [lagged]
  simp only [key a ha, key b hb]

theorem Taus.next_spec (init : Nat → ℚ)
    (hi : ∀ k, 0 < k → k < 9689 → 0 ≤ init k ∧ init k < 1) (n : Nat) (g : Taus)
    (h : Taus.Ring init n g) :
    ∃ g', g.next = some (g', lagged 2444 4187 init n) ∧ Taus.Ring init (n + 1) g' := by
  obtain ⟨h1, h2, h3, h4, h5⟩ := h
  have hL : tauswortheSeqLen = 9689 := rfl
  have f1 : rd g.seq g.firstFollower = some (laggedZ 2444 4187 init ((n : Int) - 2444)) := by
    rw [rd_some_iff, h3]
    exact ⟨by omega, h5 2444 (by omega) (by omega)⟩
  have f2 : rd g.seq g.secondFollower = some (laggedZ 2444 4187 init ((n : Int) - 4187)) := by
    rw [rd_some_iff, h4]
    exact ⟨by omega, h5 4187 (by omega) (by omega)⟩
  have hv : (if laggedZ 2444 4187 init ((n : Int) - 2444) - laggedZ 2444 4187 init ((n : Int) - 4187) < 0
      then laggedZ 2444 4187 init ((n : Int) - 2444) - laggedZ 2444 4187 init ((n : Int) - 4187) + 1
      else laggedZ 2444 4187 init ((n : Int) - 2444) - laggedZ 2444 4187 init ((n : Int) - 4187)) =
      lagged 2444 4187 init n := by
    rw [fract_diff (laggedZ_range hi _ (by omega)) (laggedZ_range hi _ (by omega))]
    exact (lagged_rec 2444 4187 (by omega) (by omega) init n).symm
  have hlead : 0 ≤ g.leader ∧ g.leader < g.seq.length := by
    rw [h1, hL, h2]; constructor <;> omega
  unfold Taus.next
  simp only [f1, f2, bind, Option.bind_some, hv, wr_of_lt hlead.1 hlead.2]
  refine ⟨_, rfl, ?_, ?_, ?_, ?_, ?_⟩
  · simpa using h1
  · simp only [List.length_set, h1, hL]; rw [h2]; split <;> push_cast <;> omega
  · simp only [List.length_set, h1, hL]; rw [h3]; split <;> push_cast <;> omega
  · simp only [List.length_set, h1, hL]; rw [h4]; split <;> push_cast <;> omega
  · intro d hd1 hd2
    simp only
    by_cases hd : d = 1
    · subst hd
      have : ((1 - ((n + 1 : Nat) : Int)) % 9689).toNat = g.leader.toNat := by
        rw [h2]; push_cast; congr 1; omega
      rw [this, List.getElem?_set_self (by omega)]
      congr 1
      unfold laggedZ
      rw [if_pos (by push_cast; omega)]
      congr 1; push_cast; omega
    · have hne : g.leader.toNat ≠ ((d - ((n + 1 : Nat) : Int)) % 9689).toNat := by
        rw [h2]; push_cast; omega
      rw [List.getElem?_set_ne hne]
      have := h5 (d - 1) (by omega) (by omega)
      have e1 : ((d - ((n + 1 : Nat) : Int)) % 9689).toNat = ((d - 1 - (n : Int)) % 9689).toNat := by
        push_cast; congr 1; omega
      have e2 : ((n + 1 : Nat) : Int) - d = (n : Int) - (d - 1) := by push_cast; omega
      rw [e1, e2]; exact this

/-- The state the ring is in right after `Init`. -/
theorem Taus.ring_init (g : Taus) (init : Nat → ℚ) (hl : g.seq.length = tauswortheSeqLen)
    (h1 : g.leader = 0) (h2 : g.firstFollower = tauswortheFirstOffset)
    (h3 : g.secondFollower = tauswortheSecondOffset)
    (hs : ∀ k, k < 9689 → g.seq[k]? = some (init k)) : Taus.Ring init 0 g := by
  refine ⟨hl, by rw [h1]; rfl, by rw [h2]; rfl, by rw [h3]; rfl, ?_⟩
  intro d hd1 hd2
  have : ((d - ((0 : Nat) : Int)) % 9689).toNat = d.toNat := by push_cast; omega
  rw [this, hs _ (by omega)]
  congr 1
  unfold laggedZ
  rw [if_neg (by push_cast; omega)]
  congr 1; push_cast; omega

theorem Taus.draws_spec (init : Nat → ℚ)
    (hi : ∀ k, 0 < k → k < 9689 → 0 ≤ init k ∧ init k < 1) :
    ∀ (m n : Nat) (g : Taus), Taus.Ring init n g →
      ∃ g', draws Taus.next m g =
        some (g', (List.range m).map (fun i => lagged 2444 4187 init (n + i))) ∧
        Taus.Ring init (n + m) g' := by
  intro m
  induction m with
  | zero => intro n g h; exact ⟨g, rfl, h⟩
  | succ m ih =>
    intro n g h
    obtain ⟨g1, e1, h1⟩ := Taus.next_spec init hi n g h
    obtain ⟨g2, e2, h2⟩ := ih (n + 1) g1 h1
    refine ⟨g2, ?_, by rw [show n + (m + 1) = n + 1 + m by omega]; exact h2⟩
    simp only [draws, e1, e2, bind, Option.bind_some]
    rw [List.range_succ_eq_map]
    simp only [List.map_cons, List.map_map, Nat.add_zero]
    congr 4
    funext i
    simp only [Function.comp]
    congr 1; omega

/-! ### Filling the Tausworthe table -/

theorem uniformVal_zero (f x : ℚ) (hf : 0 ≤ f) (hx : 0 ≤ x ∧ x < 1) :
    0 ≤ uniformVal 0 f x ∧ uniformVal 0 f x ≤ f := by
  unfold uniformVal
  split
  · rename_i h; rw [h.2]; exact ⟨hx.1, hx.2.le⟩
  · constructor <;> nlinarith [hx.1, hx.2]

theorem Taus.fill_spec (draw : Nat → ℚ) (hd : ∀ k, 0 ≤ draw k ∧ draw k < 1) :
    ∃ s, Taus.fill draw = some s ∧ s.1.length = tauswortheSeqLen ∧
      ∀ v ∈ s.1, 0 ≤ v ∧ v < 2 := by
  unfold Taus.fill
  obtain ⟨s, e, h1, h2, h3⟩ := forRange_spec
    (fun _ (s : List ℚ × ℚ × Nat) => s.1.length = tauswortheSeqLen ∧ 0 < s.2.1 ∧
      ∀ k v, s.1[k]? = some v → 0 ≤ v ∧ v ≤ 2 - 2 * s.2.1)
    (lo := 0) (hi := tauswortheDigitsRandomized) (by decide)
    (fun _ s => do
      let (seq, f, pos) := s
      let s2 ← forRange 0 seq.length (fun i s => do
        let (seq, pos) := s
        let old ← rd seq i
        let seq ← wr seq i (old + uniformVal 0 f (draw pos))
        some (seq, pos + 1)) (seq, pos)
      some (s2.1, f / 2, s2.2)) (List.replicate tauswortheSeqLen 0, 1, 0)
    (by
      refine ⟨by simp, by norm_num, ?_⟩
      intro k v hv
      rw [List.getElem?_replicate] at hv
      split at hv
      · cases hv; norm_num
      · cases hv)
    (by
      rintro j ⟨seq, f, pos⟩ _ _ ⟨hl, hf, hb⟩
      simp only at hl hf hb ⊢
      obtain ⟨⟨seq2, pos2⟩, e2, hl2, hb2⟩ := forRange_spec
        (fun i (s : List ℚ × Nat) => s.1.length = seq.length ∧
          ∀ (k : Nat) v, s.1[k]? = some v → 0 ≤ v ∧ v ≤ (if (k : Int) < i then 2 - f else 2 - 2 * f))
        (lo := 0) (hi := seq.length) (by omega)
        (fun i s => do
          let (seq, pos) := s
          let old ← rd seq i
          let seq ← wr seq i (old + uniformVal 0 f (draw pos))
          some (seq, pos + 1)) (seq, pos)
        (by
          refine ⟨rfl, ?_⟩
          intro k v hv
          rw [if_neg (by omega)]
          exact hb k v hv)
        (by
          rintro i ⟨sq, ps⟩ hi1 hi2 ⟨hl', hb'⟩
          obtain ⟨m, rfl⟩ := Int.eq_ofNat_of_zero_le hi1
          simp only at hl' hb' ⊢
          have hm : m < sq.length := by omega
          simp only [rd_of_lt hm, bind, Option.bind_some, wr_natCast hm]
          refine ⟨_, rfl, by simpa using hl', ?_⟩
          intro k v hv
          simp only at hv
          by_cases hk : k = m
          · subst hk
            rw [List.getElem?_set_self hm] at hv
            cases hv
            have o := hb' k _ (List.getElem?_eq_getElem hm)
            rw [if_neg (by omega)] at o
            have u := uniformVal_zero f (draw ps) hf.le (hd ps)
            rw [if_pos (by omega)]
            constructor <;> linarith [o.1, o.2, u.1, u.2]
          · rw [List.getElem?_set_ne (by omega)] at hv
            have o := hb' k v hv
            refine ⟨o.1, ?_⟩
            by_cases c : (k : Int) < m
            · rw [if_pos c] at o; rw [if_pos (by omega)]; exact o.2
            · rw [if_neg c] at o; rw [if_neg (by omega)]; exact o.2)
      rw [e2]
      refine ⟨_, rfl, ?_, by simpa using hf, ?_⟩
      · simp only at hl2 ⊢; rw [hl2]; exact hl
      · intro k v hv
        simp only at hv hl2 hb2 ⊢
        have hk : k < seq2.length := (List.getElem?_eq_some_iff.mp hv).1
        have o := hb2 k v hv
        rw [if_pos (by omega)] at o
        refine ⟨o.1, ?_⟩
        have : 2 * (f / 2) = f := by ring
        rw [this]; exact o.2)
  refine ⟨s, e, h1, ?_⟩
  intro v hv
  obtain ⟨k, hk⟩ := List.getElem?_of_mem hv
  have := h3 k v hk
  exact ⟨this.1, by linarith [this.2]⟩

theorem Taus.init_spec (draw : Nat → ℚ) (hd : ∀ k, 0 ≤ draw k ∧ draw k < 1) :
    ∃ g, Taus.init draw = some g ∧ g.seq.length = tauswortheSeqLen ∧
      (∀ v ∈ g.seq, 0 ≤ v ∧ v < 1) ∧ g.leader = 0 ∧ g.firstFollower = tauswortheFirstOffset ∧
      g.secondFollower = tauswortheSecondOffset := by
  obtain ⟨s, e, h1, h2⟩ := Taus.fill_spec draw hd
  unfold Taus.init
  simp only [e, bind, Option.bind_some]
  refine ⟨_, rfl, by simpa using h1, ?_, rfl, rfl, rfl⟩
  intro v hv
  simp only [List.mem_map] at hv
  obtain ⟨w, hw, rfl⟩ := hv
  have := h2 w hw
  split
  · constructor <;> linarith
  · constructor <;> linarith

end Verif.Rand
