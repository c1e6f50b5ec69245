import Verif.Io.Model
import Mathlib.Tactic.IntervalCases

/-!
# Lemmas about byte lists; C64: byte order conversion
-/

set_option autoImplicit false

namespace Verif.Io

open Verif.Go

/-! ## Words and bytes -/

theorem leBytes_length (k n : ℕ) : (leBytes k n).length = k := by
  induction k generalizing n with
  | zero => rfl
  | succ k ih => simp [leBytes, ih]

theorem leVal_leBytes (k n : ℕ) : leVal (leBytes k n) = n % 256 ^ k := by
  induction k generalizing n with
  | zero => simp [leBytes, leVal, Nat.mod_one]
  | succ k ih =>
    simp only [leBytes, leVal, ih, BitVec.toNat_ofNat]
    rw [pow_succ' 256, Nat.mod_mul, show (2 : ℕ) ^ 8 = 256 from rfl]

theorem leBytes_leVal (bs : List Byte) : leBytes bs.length (leVal bs) = bs := by
  induction bs with
  | nil => rfl
  | cons b bs ih =>
    simp only [List.length_cons, leBytes, leVal]
    have hb := b.isLt
    have h1 : (b.toNat + 256 * leVal bs) / 256 = leVal bs := by omega
    rw [h1, ih]
    congr 1
    apply BitVec.eq_of_toNat_eq
    rw [BitVec.toNat_ofNat]
    omega

theorem leVal_lt (bs : List Byte) : leVal bs < 256 ^ bs.length := by
  induction bs with
  | nil => simp [leVal]
  | cons b bs ih =>
    have hb := b.isLt
    simp only [leVal, List.length_cons, pow_succ']
    omega

theorem pow_bits (k : ℕ) : 2 ^ (8 * k) = 256 ^ k := by rw [pow_mul]; norm_num

theorem encode_length (o : Order) (k : ℕ) (w : Word k) : (encode o k w).length = k := by
  cases o <;> simp [encode, leBytes_length]

theorem decode_encode (o : Order) (k : ℕ) (w : Word k) : decode o k (encode o k w) = w := by
  have : BitVec.ofNat (8 * k) (leVal (leBytes k w.toNat)) = w := by
    rw [leVal_leBytes, ← pow_bits, Nat.mod_eq_of_lt w.isLt]
    simp
  cases o <;> simp [encode, decode, this]

theorem encode_decode (o : Order) (k : ℕ) {bs : List Byte} (h : bs.length = k) : encode o k (decode o k bs) = bs := by
  have key : ∀ l : List Byte, l.length = k → leBytes k (BitVec.ofNat (8 * k) (leVal l)).toNat = l := by
    intro l hl
    rw [BitVec.toNat_ofNat, pow_bits, Nat.mod_eq_of_lt (hl ▸ leVal_lt l), ← hl, leBytes_leVal]
  cases o
  · exact key bs h
  · show (leBytes k (BitVec.ofNat (8 * k) (leVal bs.reverse)).toNat).reverse = bs
    rw [key _ (by simpa using h), List.reverse_reverse]

theorem encode_reverse {o o' : Order} (h : o ≠ o') (k : ℕ) (w : Word k) : (encode o k w).reverse = encode o' k w := by
  cases o <;> cases o' <;> simp_all [encode]

theorem encV_length (o : Order) (v : V3) : (encV o v).length = 12 := by simp [encV, encode_length]

theorem encVd_length (o : Order) (v : V3d) : (encVd o v).length = 24 := by simp [encVd, encode_length]

/-- Splitting off the first part of a byte string. -/
theorem take_app {α : Type} {a b : List α} {n : ℕ} (h : a.length = n) : (a ++ b).take n = a := by
  subst h; simp

theorem drop_app {α : Type} {a b : List α} {n : ℕ} (h : a.length = n) : (a ++ b).drop n = b := by
  subst h; simp

theorem decV_encV (o : Order) (v : V3) : decV o (encV o v) = v := by
  unfold decV encV
  rw [List.append_assoc, take_app (encode_length o 4 _), drop_app (encode_length o 4 _),
    take_app (encode_length o 4 _), show (8 : ℕ) = 4 + 4 from rfl, ← List.drop_drop, drop_app (encode_length o 4 _),
    drop_app (encode_length o 4 _), List.take_of_length_le (encode_length o 4 _).le]
  simp [decode_encode]

theorem decVd_encVd (o : Order) (v : V3d) : decVd o (encVd o v) = v := by
  unfold decVd encVd
  rw [List.append_assoc, take_app (encode_length o 8 _), drop_app (encode_length o 8 _),
    take_app (encode_length o 8 _), show (16 : ℕ) = 8 + 8 from rfl, ← List.drop_drop, drop_app (encode_length o 8 _),
    drop_app (encode_length o 8 _), List.take_of_length_le (encode_length o 8 _).le]
  simp [decode_encode]

/-! ## Slices and their memory -/

section
variable {α : Type} {s : ℕ} {enc : α → List Byte} {dec : List Byte → α}

theorem flatMap_length (hl : ∀ a, (enc a).length = s) (xs : List α) : (xs.flatMap enc).length = s * xs.length := by
  induction xs with
  | nil => simp
  | cons a xs ih => simp [List.flatMap_cons, hl, ih, Nat.mul_add, Nat.add_comm]

theorem ofMem_flatMap (hl : ∀ a, (enc a).length = s) (hd : ∀ a, dec (enc a) = a) (xs : List α) :
    ofMem s dec xs.length (xs.flatMap enc) = xs := by
  induction xs with
  | nil => rfl
  | cons a xs ih =>
    simp only [List.length_cons, ofMem, List.flatMap_cons]
    rw [take_app (hl a), drop_app (hl a), hd, ih]

theorem ofMem_length (n : ℕ) (bs : List Byte) : (ofMem s dec n bs).length = n := by
  induction n generalizing bs with
  | zero => rfl
  | succ n ih => simp [ofMem, ih]

/-- One element of a fixed-size record file. -/
theorem slice_flatMap (hl : ∀ a, (enc a).length = s) (xs : List α) (ys : List Byte) {i : ℕ} {a : α}
    (h : xs[i]? = some a) : (((xs.flatMap enc) ++ ys).drop (s * i)).take s = enc a := by
  induction xs generalizing i with
  | nil => simp at h
  | cons b xs ih =>
    cases i with
    | zero =>
      simp only [List.getElem?_cons_zero, Option.some.injEq] at h
      subst h
      rw [List.flatMap_cons, List.append_assoc, Nat.mul_zero, List.drop_zero, take_app (hl _)]
    | succ i =>
      rw [List.getElem?_cons_succ] at h
      rw [List.flatMap_cons, List.append_assoc, Nat.mul_succ, Nat.add_comm, ← List.drop_drop, drop_app (hl b)]
      exact ih h

theorem getElem_flatMap (hl : ∀ a, (enc a).length = s) (xs : List α) (i j : ℕ) (hj : j < s) :
    (xs.flatMap enc)[s * i + j]? = (xs[i]?).bind fun a => (enc a)[j]? := by
  induction xs generalizing i with
  | nil => simp
  | cons b xs ih =>
    rw [List.flatMap_cons]
    cases i with
    | zero => rw [Nat.mul_zero, Nat.zero_add, List.getElem?_append_left (by rw [hl]; exact hj)]; simp
    | succ i =>
      rw [List.getElem?_append_right (by rw [hl, Nat.mul_succ]; omega), hl,
        show s * (i + 1) + j - s = s * i + j by rw [Nat.mul_succ]; omega, ih]
      simp

end

/-! ## The exchange loops -/

/-- One exchange. -/
theorem swap_step {b : List Byte} {p q : ℤ} {p' q' : ℕ} (hp : p = p') (hq : q = q') (h1 : p' < b.length)
    (h2 : q' < b.length) :
    ∃ b', (do
      let x ← rd b p
      let y ← rd b q
      let b ← wr b p y
      wr b q x) = some b' ∧ b'.length = b.length ∧
      ∀ m : ℕ, b'[m]? = if m = q' then b[p']? else if m = p' then b[q']? else b[m]? := by
  subst hp hq
  rw [rd_natCast, rd_natCast, List.getElem?_eq_getElem h1, List.getElem?_eq_getElem h2]
  refine ⟨_, bind_of rfl (bind_of rfl (bind_of (wr_natCast h1) (wr_natCast (by simpa using h2)))), by simp, ?_⟩
  intro m
  rw [List.getElem?_set, List.getElem?_set]
  by_cases c : q' = m
  · subst c
    simp [h2]
  · rw [if_neg c, if_neg (Ne.symm c)]
    by_cases c' : p' = m
    · subst c'
      simp [h1]
    · rw [if_neg c', if_neg (Ne.symm c')]

/-- The exchange loops reverse every group of `2 * half` bytes. -/
theorem swapLoop_spec (cnt half : ℕ) (b : List Byte) (h : b.length = cnt * (2 * half)) :
    ∃ b', swapLoop cnt ((2 * half : ℕ) : ℤ) half ((2 * half - 1 : ℕ) : ℤ) b = some b' ∧ b'.length = b.length ∧
      ∀ i < cnt, ∀ j < 2 * half, b'[2 * half * i + j]? = b[2 * half * i + (2 * half - 1 - j)]? := by
  unfold swapLoop
  obtain ⟨b', e, hl, hb⟩ := forRange_nat (lo := 0) (hi := cnt) (fun k st => st.length = b.length ∧
      ∀ i < cnt, ∀ j < 2 * half, st[2 * half * i + j]? =
        if i < k then b[2 * half * i + (2 * half - 1 - j)]? else b[2 * half * i + j]?) (Nat.zero_le _)
    (fun i b => forRange 0 half (fun j b => do
      let p ← rd b (i * ((2 * half : ℕ) : ℤ) + j)
      let q ← rd b (i * ((2 * half : ℕ) : ℤ) + ((2 * half - 1 : ℕ) : ℤ) - j)
      let b ← wr b (i * ((2 * half : ℕ) : ℤ) + j) q
      wr b (i * ((2 * half : ℕ) : ℤ) + ((2 * half - 1 : ℕ) : ℤ) - j) p) b) b ⟨rfl, fun i _ j _ => by simp⟩ (by
    intro k st _ hk ⟨hl, hst⟩
    have hlen : 2 * half * k + 2 * half ≤ st.length := by
      rw [hl, h]
      calc 2 * half * k + 2 * half = (k + 1) * (2 * half) := by ring
        _ ≤ cnt * (2 * half) := Nat.mul_le_mul_right _ hk
    obtain ⟨st', e, hl', hst'⟩ := forRange_nat (lo := 0) (hi := half) (fun t s => s.length = st.length ∧
        (∀ m, (m < 2 * half * k ∨ 2 * half * k + 2 * half ≤ m) → s[m]? = st[m]?) ∧
        ∀ j < 2 * half, s[2 * half * k + j]? =
          if j < t ∨ 2 * half - 1 - j < t then st[2 * half * k + (2 * half - 1 - j)]? else st[2 * half * k + j]?)
      (Nat.zero_le _)
      (fun j b => do
        let p ← rd b ((k : ℤ) * ((2 * half : ℕ) : ℤ) + j)
        let q ← rd b ((k : ℤ) * ((2 * half : ℕ) : ℤ) + ((2 * half - 1 : ℕ) : ℤ) - j)
        let b ← wr b ((k : ℤ) * ((2 * half : ℕ) : ℤ) + j) q
        wr b ((k : ℤ) * ((2 * half : ℕ) : ℤ) + ((2 * half - 1 : ℕ) : ℤ) - j) p) st
      ⟨rfl, fun _ _ => rfl, fun j hj => by rw [if_neg (by omega)]⟩ (by
        intro t s _ ht ⟨hs, ho, hi⟩
        obtain ⟨s', e, hl', hs'⟩ := swap_step (b := s) (p := (k : ℤ) * ((2 * half : ℕ) : ℤ) + (t : ℤ))
          (q := (k : ℤ) * ((2 * half : ℕ) : ℤ) + ((2 * half - 1 : ℕ) : ℤ) - (t : ℤ))
          (p' := 2 * half * k + t) (q' := 2 * half * k + (2 * half - 1 - t))
          (by push_cast; ring)
          (by
            have : ((2 * half - 1 - t : ℕ) : ℤ) = ((2 * half - 1 : ℕ) : ℤ) - t := by omega
            push_cast [this]; ring)
          (by omega) (by omega)
        refine ⟨s', e, by omega, ?_, ?_⟩
        · intro m hm
          rw [hs', if_neg (by omega), if_neg (by omega), ho m hm]
        · intro j hj
          rw [hs']
          by_cases c1 : j = 2 * half - 1 - t
          · rw [if_pos (by omega), hi t (by omega), if_neg (by omega), if_pos (by omega),
              show 2 * half - 1 - j = t by omega]
          · rw [if_neg (by omega)]
            by_cases c2 : j = t
            · subst c2
              rw [if_pos rfl, hi _ (by omega), if_neg (by omega), if_pos (by omega)]
            · rw [if_neg (by omega), hi j hj]
              by_cases c3 : j < t ∨ 2 * half - 1 - j < t
              · rw [if_pos c3, if_pos (by omega)]
              · rw [if_neg c3, if_neg (by omega)])
    refine ⟨st', e, by omega, ?_⟩
    intro i hi j hj
    by_cases c : i = k
    · subst c
      rw [hst'.2 j hj, if_pos (by omega), if_pos (by omega), hst i hi _ (by omega), if_neg (by omega)]
    · have hout : 2 * half * i + j < 2 * half * k ∨ 2 * half * k + 2 * half ≤ 2 * half * i + j := by
        rcases Nat.lt_or_gt_of_ne c with c | c
        · left
          calc 2 * half * i + j < 2 * half * i + 2 * half := by omega
            _ = 2 * half * (i + 1) := by ring
            _ ≤ 2 * half * k := Nat.mul_le_mul_left _ c
        · right
          calc 2 * half * k + 2 * half = 2 * half * (k + 1) := by ring
            _ ≤ 2 * half * i := Nat.mul_le_mul_left _ c
            _ ≤ _ := by omega
      rw [hst'.1 _ hout, hst i hi j hj]
      by_cases c' : i < k
      · rw [if_pos c', if_pos (by omega)]
      · rw [if_neg c', if_neg (by omega)])
  exact ⟨b', e, hl, fun i hi j hj => by rw [hb i hi j hj, if_pos hi]⟩

/-- In terms of words: the bytes of words in one order become the bytes of the same words in the other order. -/
theorem swapLoop_words {o o' : Order} (ho : o ≠ o') (half : ℕ) (ws : List (Word (2 * half))) :
    swapLoop ws.length ((2 * half : ℕ) : ℤ) half ((2 * half - 1 : ℕ) : ℤ) (ws.flatMap (encode o (2 * half))) =
      some (ws.flatMap (encode o' (2 * half))) := by
  have hl := flatMap_length (encode_length o (2 * half)) ws
  have hl' := flatMap_length (encode_length o' (2 * half)) ws
  obtain ⟨b', e, hlen, hb⟩ := swapLoop_spec ws.length half (ws.flatMap (encode o (2 * half))) (by rw [hl, Nat.mul_comm])
  rw [e]
  congr 1
  apply List.ext_getElem?
  intro m
  rcases Nat.lt_or_ge m (2 * half * ws.length) with hm | hm
  · have hpos : 0 < 2 * half := by
      rcases Nat.eq_zero_or_pos (2 * half) with h | h
      · have : half = 0 := by omega
        subst this
        simp at hm
      · exact h
    have hi : m / (2 * half) < ws.length := Nat.div_lt_of_lt_mul hm
    have hj := Nat.mod_lt m hpos
    have em := Nat.div_add_mod m (2 * half)
    rw [← em, hb _ hi _ hj, getElem_flatMap (encode_length o (2 * half)) ws _ _ (by omega),
      getElem_flatMap (encode_length o' (2 * half)) ws _ _ hj, List.getElem?_eq_getElem hi]
    simp only [Option.bind_some]
    rw [← encode_reverse ho, List.getElem?_reverse (by rw [encode_length]; exact hj), encode_length]
  · rw [List.getElem?_eq_none (by omega), List.getElem?_eq_none (by omega)]

theorem isSysOrder_iff (sys o : Order) : isSysOrder sys o = decide (sys = o) := by
  cases sys <;> cases o <;> decide

/-! ## Vectors as words -/

/-- The words of a slice of vectors. -/
def wordsOf (vs : List V3) : List (Word 4) := vs.flatMap fun v => [v.x, v.y, v.z]

theorem wordsOf_length (vs : List V3) : (wordsOf vs).length = vs.length * 3 := by
  induction vs with
  | nil => rfl
  | cons v vs ih => simp only [wordsOf, List.flatMap_cons, List.length_append, List.length_cons, List.length_nil] at *; omega

theorem encV_words (o : Order) (vs : List V3) : vs.flatMap (encV o) = (wordsOf vs).flatMap (encode o 4) := by
  unfold wordsOf
  rw [List.flatMap_assoc]
  congr 1
  funext v
  simp [encV]

/-- The words of a slice of `[3]float64`. -/
def wordsOfd (vs : List V3d) : List (Word 8) := vs.flatMap fun v => [v.x, v.y, v.z]

theorem wordsOfd_length (vs : List V3d) : (wordsOfd vs).length = vs.length * 3 := by
  induction vs with
  | nil => rfl
  | cons v vs ih => simp only [wordsOfd, List.flatMap_cons, List.length_append, List.length_cons, List.length_nil] at *; omega

theorem encVd_words (o : Order) (vs : List V3d) : vs.flatMap (encVd o) = (wordsOfd vs).flatMap (encode o 8) := by
  unfold wordsOfd
  rw [List.flatMap_assoc]
  congr 1
  funext v
  simp [encVd]

/-- Conversion of the memory of a slice of vectors between byte orders. -/
theorem swap_vecs {o o' : Order} (ho : o ≠ o') (vs : List V3) :
    swapLoop (vs.length * 3) 4 2 3 (vs.flatMap (encV o)) = some (vs.flatMap (encV o')) := by
  rw [encV_words, encV_words]
  have h := swapLoop_words ho 2 (wordsOf vs)
  rw [wordsOf_length] at h
  push_cast at h
  exact h

/-! ## Reading from files -/

/-- What is left of the file. -/
def Rdr.rest (r : Rdr) : List Byte := r.data.drop r.pos

theorem Rdr.read_ok {r : Rdr} {buf bytes tail : List Byte} (h : r.rest = bytes ++ tail)
    (hl : buf.length = bytes.length) :
    ∃ r' : Rdr, r.read buf = .ok (bytes, r') ∧ r'.data = r.data ∧ r'.rest = tail := by
  refine ⟨{ r with pos := r.pos + bytes.length }, ?_, rfl, ?_⟩
  · have hg : (r.data.drop r.pos).take buf.length = bytes := by
      show r.rest.take _ = _
      rw [h, hl, take_app rfl]
    unfold Rdr.read
    simp only [hg]
    by_cases hb : buf = []
    · have : bytes = [] := by rw [hb] at hl; exact List.eq_nil_of_length_eq_zero hl.symm
      rw [if_pos hb, hb, this]
      simp
    · rw [if_neg hb, if_neg]
      · simp [← hl]
      · intro hc
        rw [hc] at hl
        exact hb (List.eq_nil_of_length_eq_zero hl)
  · show r.data.drop (r.pos + bytes.length) = tail
    rw [← List.drop_drop]
    show r.rest.drop _ = tail
    rw [h, drop_app rfl]

theorem Rdr.readFull_ok {r : Rdr} {bytes tail : List Byte} {n : ℕ} (h : r.rest = bytes ++ tail) (hn : bytes.length = n) :
    ∃ r' : Rdr, r.readFull n = .ok (bytes, r') ∧ r'.data = r.data ∧ r'.rest = tail := by
  refine ⟨{ r with pos := r.pos + n }, ?_, rfl, ?_⟩
  · unfold Rdr.readFull
    have hg : (r.data.drop r.pos).take n = bytes := by
      show r.rest.take _ = _
      rw [h, take_app hn]
    simp only [hg, hn, if_true]
  · show r.data.drop (r.pos + n) = tail
    rw [← List.drop_drop]
    show r.rest.drop _ = tail
    rw [h, drop_app hn]

theorem readInt32_ok {r : Rdr} {o : Order} {w : Word 4} {tail : List Byte} (h : r.rest = encode o 4 w ++ tail) :
    ∃ r' : Rdr, readInt32 r o = .ok (w, r') ∧ r'.data = r.data ∧ r'.rest = tail := by
  obtain ⟨r', e, hd, hr⟩ := Rdr.readFull_ok h (encode_length o 4 w)
  refine ⟨r', ?_, hd, hr⟩
  unfold readInt32
  rw [e]
  simp only [decode_encode]

theorem Res.bind_ok {α β : Type} {r : Res α} {a : α} {f : α → Res β} {q : Res β} (h : r = .ok a) (h' : f a = q) :
    (r >>= f) = q := by
  subst h; exact h'

/-! ## C64 -/

/-- Vectors of 32-bit floats written in byte order `o` are read back unchanged on a machine of either byte order; the
file is left at the first byte after them. -/
theorem C64_vec {sys o : Order} {r : Rdr} {vs buf : List V3} {tail : List Byte}
    (h : r.rest = vs.flatMap (encV o) ++ tail) (hl : buf.length = vs.length) :
    ∃ r', readVecAsByte sys r o buf = .ok (vs, r') ∧ r'.data = r.data ∧ r'.rest = tail := by
  have hb : (buf.flatMap (encV sys)).length = (vs.flatMap (encV o)).length := by
    rw [flatMap_length (encV_length sys), flatMap_length (encV_length o), hl]
  obtain ⟨r', e, hd, hr⟩ := Rdr.read_ok h hb
  refine ⟨r', ?_, hd, hr⟩
  unfold readVecAsByte
  refine Res.bind_ok e ?_
  simp only [isSysOrder_iff]
  by_cases ho : sys = o
  · subst ho
    simp only [decide_true, Bool.true_eq_false, if_false]
    refine Res.bind_ok rfl ?_
    rw [hl, ofMem_flatMap (encV_length sys) (decV_encV sys)]
  · simp only [ho, decide_false, if_true]
    rw [hl, swap_vecs (Ne.symm ho)]
    refine Res.bind_ok rfl ?_
    rw [ofMem_flatMap (encV_length sys) (decV_encV sys)]

example : ∃ r', readVecAsByte .le ⟨[0, 0, 0, 1, 0, 0, 2, 0, 0, 3, 0, 0, 9], 0⟩ .be [⟨0, 0, 0⟩] =
    .ok ([⟨1, 512, 3 * 65536⟩], r') ∧ r'.data = [0, 0, 0, 1, 0, 0, 2, 0, 0, 3, 0, 0, 9] ∧ r'.rest = [9] :=
  C64_vec (sys := .le) (o := .be) (r := ⟨[0, 0, 0, 1, 0, 0, 2, 0, 0, 3, 0, 0, 9], 0⟩)
    (vs := [⟨1, 512, 3 * 65536⟩]) (tail := [9]) (by decide) rfl

/-- The same for 64-bit integers. -/
theorem C64_int64 {sys o : Order} {r : Rdr} {ws buf : List (Word 8)} {tail : List Byte}
    (h : r.rest = ws.flatMap (encode o 8) ++ tail) (hl : buf.length = ws.length) :
    ∃ r', readInt64AsByte sys r o buf = .ok (ws, r') ∧ r'.data = r.data ∧ r'.rest = tail := by
  have hb : (buf.flatMap (encode sys 8)).length = (ws.flatMap (encode o 8)).length := by
    rw [flatMap_length (encode_length sys 8), flatMap_length (encode_length o 8), hl]
  obtain ⟨r', e, hd, hr⟩ := Rdr.read_ok h hb
  refine ⟨r', ?_, hd, hr⟩
  unfold readInt64AsByte
  refine Res.bind_ok e ?_
  simp only [isSysOrder_iff]
  by_cases ho : sys = o
  · subst ho
    simp only [decide_true, Bool.true_eq_false, if_false]
    refine Res.bind_ok rfl ?_
    rw [hl, ofMem_flatMap (encode_length sys 8) (decode_encode sys 8)]
  · simp only [ho, decide_false, if_true]
    have hs : swapLoop ws.length 8 4 7 (ws.flatMap (encode o 8)) = some (ws.flatMap (encode sys 8)) :=
      swapLoop_words (Ne.symm ho) 4 ws
    rw [hl, hs]
    refine Res.bind_ok rfl ?_
    rw [ofMem_flatMap (encode_length sys 8) (decode_encode sys 8)]

example : ∃ r', readInt64AsByte .le ⟨[1, 0, 0, 0, 0, 0, 0, 2], 0⟩ .be [0] = .ok ([2 ^ 56 + 2], r') ∧ r'.data = [1, 0, 0, 0, 0, 0, 0, 2] ∧
    r'.rest = [] :=
  C64_int64 (sys := .le) (o := .be) (r := ⟨[1, 0, 0, 0, 0, 0, 0, 2], 0⟩) (ws := [2 ^ 56 + 2]) (tail := []) (by decide) rfl

/-- The same for 32-bit integers, which are sign-extended. -/
theorem C64_int32 {sys o : Order} {r : Rdr} {ws : List (Word 4)} {buf : List (Word 8)} {tail : List Byte}
    (h : r.rest = ws.flatMap (encode o 4) ++ tail) (hl : buf.length = ws.length) :
    ∃ out r', readInt32AsByte sys r o buf = .ok (out, r') ∧ r'.data = r.data ∧ r'.rest = tail ∧
      out.map BitVec.toInt = ws.map BitVec.toInt := by
  have hb : ((List.replicate buf.length (0 : Word 4)).flatMap (encode sys 4)).length = (ws.flatMap (encode o 4)).length := by
    rw [flatMap_length (encode_length sys 4), flatMap_length (encode_length o 4), List.length_replicate, hl]
  obtain ⟨r', e, hd, hr⟩ := Rdr.read_ok h hb
  refine ⟨ws.map fun w => BitVec.signExtend (8 * 8) w, r', ?_, hd, hr, ?_⟩
  · unfold readInt32AsByte
    refine Res.bind_ok e ?_
    simp only [isSysOrder_iff]
    by_cases ho : sys = o
    · subst ho
      simp only [decide_true, Bool.true_eq_false, if_false]
      refine Res.bind_ok rfl ?_
      rw [hl, ofMem_flatMap (encode_length sys 4) (decode_encode sys 4)]
    · simp only [ho, decide_false, if_true]
      have hs : swapLoop ws.length 4 2 3 (ws.flatMap (encode o 4)) = some (ws.flatMap (encode sys 4)) :=
        swapLoop_words (Ne.symm ho) 2 ws
      rw [hl, hs]
      refine Res.bind_ok rfl ?_
      rw [ofMem_flatMap (encode_length sys 4) (decode_encode sys 4)]
  · rw [List.map_map]
    refine List.map_congr_left fun w _ => ?_
    exact BitVec.toInt_signExtend_of_le (by norm_num)

example : ∃ out r', readInt32AsByte .be ⟨[255, 255, 255, 255, 7, 0, 0, 0], 0⟩ .le [0, 0] = .ok (out, r') ∧
    r'.data = [255, 255, 255, 255, 7, 0, 0, 0] ∧ r'.rest = [] ∧ out.map BitVec.toInt = [-1, 7] :=
  C64_int32 (sys := .be) (o := .le) (r := ⟨[255, 255, 255, 255, 7, 0, 0, 0], 0⟩) (ws := [-1, 7]) (tail := [])
    (by decide) rfl

/-- Eight exchanges that undo each other: the loop of the 64-bit vector reader changes nothing. -/
theorem swapLoop_noop (cnt : ℕ) (b : List Byte) (h : b.length = cnt * 8) : swapLoop cnt 8 4 3 b = some b := by
  unfold swapLoop
  obtain ⟨b', e, rfl⟩ := forRange_nat (lo := 0) (hi := cnt) (fun _ st => st = b) (Nat.zero_le _)
    (fun i b => forRange 0 4 (fun j b => do
      let p ← rd b (i * 8 + j)
      let q ← rd b (i * 8 + 3 - j)
      let b ← wr b (i * 8 + j) q
      wr b (i * 8 + 3 - j) p) b) b rfl (by
    rintro k st _ hk rfl
    have hlen : k * 8 + 8 ≤ st.length := by rw [h]; omega
    obtain ⟨s0, e0, l0, h0⟩ := swap_step (b := st) (p := (k : ℤ) * 8 + 0) (q := (k : ℤ) * 8 + 3 - 0)
      (p' := k * 8) (q' := k * 8 + 3) (by push_cast; ring) (by push_cast; ring) (by omega) (by omega)
    obtain ⟨s1, e1, l1, h1⟩ := swap_step (b := s0) (p := (k : ℤ) * 8 + (0 + 1)) (q := (k : ℤ) * 8 + 3 - (0 + 1))
      (p' := k * 8 + 1) (q' := k * 8 + 2) (by push_cast; ring) (by push_cast; ring) (by omega) (by omega)
    obtain ⟨s2, e2, l2, h2⟩ := swap_step (b := s1) (p := (k : ℤ) * 8 + (0 + 1 + 1))
      (q := (k : ℤ) * 8 + 3 - (0 + 1 + 1)) (p' := k * 8 + 2) (q' := k * 8 + 1) (by push_cast; ring)
      (by push_cast; ring) (by omega) (by omega)
    obtain ⟨s3, e3, l3, h3⟩ := swap_step (b := s2) (p := (k : ℤ) * 8 + (0 + 1 + 1 + 1))
      (q := (k : ℤ) * 8 + 3 - (0 + 1 + 1 + 1)) (p' := k * 8 + 3) (q' := k * 8) (by push_cast; ring)
      (by push_cast; ring) (by omega) (by omega)
    refine ⟨st, ?_, rfl⟩
    rw [forRange_step (by norm_num)]
    refine bind_of e0 ?_
    rw [forRange_step (by norm_num)]
    refine bind_of e1 ?_
    rw [forRange_step (by norm_num)]
    refine bind_of e2 ?_
    rw [forRange_step (by norm_num)]
    refine bind_of e3 ?_
    rw [forRange_empty (by norm_num)]
    congr 1
    apply List.ext_getElem?
    intro m
    simp only [h3, h2, h1, h0]
    split_ifs <;> first | rfl | omega | (congr 1; omega))
  exact e

/-- Exchanges the bytes of a word. -/
def bswap (w : Word 8) : Word 8 := decode .be 8 (encode .le 8 w)

/-- Vectors of 64-bit floats are read correctly (each component converted to 32 bits) when the file has the byte order
of the machine. The other byte order is missing: see the counterexample. -/
theorem C64_vec64_partial {narrow : Word 8 → Word 4} {o : Order} {r : Rdr} {vs : List V3d} {buf : List V3}
    {tail : List Byte} (h : r.rest = vs.flatMap (encVd o) ++ tail) (hl : buf.length = vs.length) :
    ∃ r', readVec64AsByte narrow o r o buf = .ok (vs.map fun v => ⟨narrow v.x, narrow v.y, narrow v.z⟩, r') ∧
      r'.data = r.data ∧ r'.rest = tail := by
  have hb : ((List.replicate buf.length (⟨0, 0, 0⟩ : V3d)).flatMap (encVd o)).length = (vs.flatMap (encVd o)).length := by
    rw [flatMap_length (encVd_length o), flatMap_length (encVd_length o), List.length_replicate, hl]
  obtain ⟨r', e, hd, hr⟩ := Rdr.read_ok h hb
  refine ⟨r', ?_, hd, hr⟩
  unfold readVec64AsByte
  refine Res.bind_ok e ?_
  simp only [isSysOrder_iff, decide_true, Bool.true_eq_false, if_false]
  refine Res.bind_ok rfl ?_
  rw [List.length_replicate, hl, ofMem_flatMap (encVd_length o) (decVd_encVd o)]

example : ∃ r', readVec64AsByte (fun w => w.setWidth 32) .le ⟨(encVd .le ⟨5, 6, 7⟩) ++ [1], 0⟩ .le [⟨0, 0, 0⟩] =
    .ok ([⟨5, 6, 7⟩], r') ∧ r'.data = (encVd .le ⟨5, 6, 7⟩) ++ [1] ∧ r'.rest = [1] :=
  C64_vec64_partial (narrow := fun w => w.setWidth 32) (o := .le) (r := ⟨(encVd .le ⟨5, 6, 7⟩) ++ [1], 0⟩)
    (vs := [⟨5, 6, 7⟩]) (tail := [1]) rfl rfl

/-- When the byte orders differ, every component is read with its bytes in the wrong order, whatever the values. -/
theorem C64_vec64_counterexample {narrow : Word 8 → Word 4} {sys o : Order} (ho : sys ≠ o) {r : Rdr} {vs : List V3d}
    {buf : List V3} {tail : List Byte} (h : r.rest = vs.flatMap (encVd o) ++ tail) (hl : buf.length = vs.length) :
    ∃ r', readVec64AsByte narrow sys r o buf =
      .ok (vs.map fun v => ⟨narrow (bswap v.x), narrow (bswap v.y), narrow (bswap v.z)⟩, r') := by
  have hb : ((List.replicate buf.length (⟨0, 0, 0⟩ : V3d)).flatMap (encVd sys)).length =
      (vs.flatMap (encVd o)).length := by
    rw [flatMap_length (encVd_length sys), flatMap_length (encVd_length o), List.length_replicate, hl]
  obtain ⟨r', e, _, _⟩ := Rdr.read_ok h hb
  refine ⟨r', ?_⟩
  unfold readVec64AsByte
  refine Res.bind_ok e ?_
  simp only [isSysOrder_iff, ho, decide_false, if_true, List.length_replicate]
  have hs : swapLoop (buf.length * 3) 8 4 3 (vs.flatMap (encVd o)) = some (vs.flatMap (encVd o)) := by
    have := swapLoop_noop (buf.length * 3) (vs.flatMap (encVd o)) (by rw [flatMap_length (encVd_length o), hl]; omega)
    push_cast at this
    exact this
  rw [hs]
  refine Res.bind_ok rfl ?_
  have hw : ∀ w : Word 8, encode o 8 w = encode sys 8 (bswap w) := by
    intro w
    unfold bswap
    have e1 : decode .be 8 (encode .le 8 w) = decode .le 8 (encode .be 8 w) := by
      simp [decode, encode]
    cases sys <;> cases o
    · exact absurd rfl ho
    · rw [e1, encode_decode _ _ (encode_length _ _ _)]
    · rw [encode_decode _ _ (encode_length _ _ _)]
    · exact absurd rfl ho
  have hv : vs.flatMap (encVd o) = (vs.map fun v => (⟨bswap v.x, bswap v.y, bswap v.z⟩ : V3d)).flatMap (encVd sys) := by
    rw [List.flatMap_map]
    congr 1
    funext v
    unfold encVd
    rw [hw, hw, hw]
  have hl2 : buf.length = (vs.map fun v => (⟨bswap v.x, bswap v.y, bswap v.z⟩ : V3d)).length := by simpa using hl
  rw [hv, hl2, ofMem_flatMap (encVd_length sys) (decVd_encVd sys), List.map_map]
  rfl

/-- 1.0 in big endian becomes a denormal number on a little endian machine. -/
example : bswap 0x3ff0000000000000 = 0xf03f ∧ ∃ r', readVec64AsByte (fun w => w.setWidth 32) .le
    ⟨encVd .be ⟨0x3ff0000000000000, 0, 0⟩, 0⟩ .be [⟨0, 0, 0⟩] = .ok ([⟨0xf03f, 0, 0⟩], r') :=
  ⟨by decide, C64_vec64_counterexample (narrow := fun w => w.setWidth 32) (sys := .le) (o := .be)
    (vs := [⟨0x3ff0000000000000, 0, 0⟩]) (tail := []) (by decide) (by decide) rfl⟩

end Verif.Io
