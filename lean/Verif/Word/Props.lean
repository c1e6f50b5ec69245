import Mathlib.Tactic.FinCases
import Verif.Word.Model
import Verif.Main.Model
import Mathlib.Tactic.Linarith
import Mathlib.Tactic.Ring

/-! # C182: indices in 64-bit words are those in unbounded integers -/

set_option autoImplicit false

namespace Verif.Word

open Verif.Geom

/-- The word holds the number up to wrap-around. -/
def Cong (x : Word) (n : ℤ) : Prop := x = BitVec.ofInt 64 n

theorem cong_self (x : Word) : Cong x x.toInt := BitVec.ofInt_toInt.symm

theorem Cong.add {x y : Word} {n m : ℤ} (hx : Cong x n) (hy : Cong y m) : Cong (x + y) (n + m) := by
  unfold Cong at *
  rw [hx, hy, BitVec.ofInt_add]

theorem Cong.mul {x y : Word} {n m : ℤ} (hx : Cong x n) (hy : Cong y m) : Cong (x * y) (n * m) := by
  unfold Cong at *
  rw [hx, hy, BitVec.ofInt_mul]

theorem Cong.sub {x y : Word} {n m : ℤ} (hx : Cong x n) (hy : Cong y m) : Cong (x - y) (n - m) := by
  have h : Cong (x - y + y) (n - m + m) := by
    rw [BitVec.sub_add_cancel, sub_add_cancel]; exact hx
  unfold Cong at *
  rw [BitVec.ofInt_add, ← hy] at h
  exact (BitVec.add_left_inj _).1 h

theorem Cong.toInt {x : Word} {n : ℤ} (h : Cong x n) (lo : -2 ^ 63 ≤ n) (hi : n < 2 ^ 63) : x.toInt = n := by
  unfold Cong at h
  rw [h]
  exact BitVec.toInt_ofInt_eq_self (by norm_num) (by simpa using lo) (by simpa using hi)

theorem cong_word (n : ℤ) : Cong (word n) n := rfl

theorem toInt_inj {x y : Word} : x = y ↔ x.toInt = y.toInt := BitVec.toInt_inj.symm

theorem toInt_zero : (0 : Word).toInt = 0 := by decide

theorem slt_iff {x y : Word} : x.slt y = decide (x.toInt < y.toInt) := by
  rw [Bool.eq_iff_iff, BitVec.slt_iff_toInt_lt]; simp

theorem sle_iff {x y : Word} : x.sle y = decide (x.toInt ≤ y.toInt) := by
  rw [Bool.eq_iff_iff, BitVec.sle_iff_toInt_le]; simp

theorem toInt_sdiv_pos {x y : Word} (hx : 0 ≤ x.toInt) (hy : 0 < y.toInt) : (x.sdiv y).toInt = x.toInt.tdiv y.toInt := by
  have h1 := BitVec.toInt_lt (x := x)
  have h2 : x.toInt.tdiv y.toInt ≤ x.toInt := Int.tdiv_le_self _ hx
  have h3 : 0 ≤ x.toInt.tdiv y.toInt := Int.tdiv_nonneg hx hy.le
  rw [BitVec.toInt_sdiv]
  apply Int.bmod_eq_of_le <;> norm_num at * <;> omega

/-- C182 for grids: bounds, indices and coordinates. -/
theorem C182_grid (origin width : Fin 3 → Word) (ho : ∀ i, -2 ^ 62 ≤ (origin i).toInt ∧ (origin i).toInt ≤ 2 ^ 62)
    (hw : ∀ i, 0 < (width i).toInt ∧ (width i).toInt ≤ 2 ^ 21) :
    let g64 := newGrid64 origin width
    let g := newGrid (fun i => (origin i).toInt) (fun i => (width i).toInt)
    (∀ x y z : Word, g64.boundsCheck x y z = g.boundsCheck x.toInt y.toInt z.toInt) ∧
    (∀ x y z : Word, (g64.idxCheck x y z).1.toInt = (g.idxCheck x.toInt y.toInt z.toInt).1 ∧
      (g64.idxCheck x y z).2 = (g.idxCheck x.toInt y.toInt z.toInt).2) ∧
    (∀ i : Word, 0 ≤ i.toInt → (g64.coords i).map (fun c => (c.1.toInt, c.2.1.toInt, c.2.2.toInt)) = g.coords i.toInt) := by
  intro g64 g
  have hu : ∀ i, (g64.uBounds i).toInt = g.uBounds i := by
    intro i
    refine ((cong_self (origin i)).add (cong_self (width i))).toInt ?_ ?_
    · have := ho i; have := hw i; norm_num at *; omega
    · have := ho i; have := hw i; norm_num at *; omega
  have hb : ∀ x y z : Word, g64.boundsCheck x y z = g.boundsCheck x.toInt y.toInt z.toInt := by
    intro x y z
    unfold Grid64.boundsCheck Grid.boundsCheck
    simp only [slt_iff, sle_iff, hu]
    rfl
  have harea : (g64.area).toInt = g.area := by
    have h0 := hw 0
    have h1 := hw 1
    refine ((cong_self (width 0)).mul (cong_self (width 1))).toInt ?_ ?_
    · have := mul_pos h0.1 h1.1
      norm_num; omega
    · have := mul_le_mul h0.2 h1.2 h1.1.le (by norm_num)
      norm_num at this ⊢; omega
  refine ⟨hb, ?_, ?_⟩
  · intro x y z
    unfold Grid64.idxCheck Grid.idxCheck
    rw [hb]
    cases hbc : g.boundsCheck x.toInt y.toInt z.toInt with
    | false => exact ⟨rfl, rfl⟩
    | true =>
      refine ⟨?_, rfl⟩
      simp only [Bool.not_true, Bool.false_eq_true, if_false]
      have hbc' : ((origin 0).toInt ≤ x.toInt ∧ (origin 1).toInt ≤ y.toInt ∧ (origin 2).toInt ≤ z.toInt) ∧
          x.toInt < (origin 0).toInt + (width 0).toInt ∧ y.toInt < (origin 1).toInt + (width 1).toInt ∧
          z.toInt < (origin 2).toInt + (width 2).toInt := by
        unfold Grid.boundsCheck at hbc
        simp only [Bool.and_eq_true, decide_eq_true_eq] at hbc
        obtain ⟨⟨⟨a, b⟩, c⟩, ⟨d, e⟩, f⟩ := hbc
        exact ⟨⟨a, b, c⟩, d, e, f⟩
      obtain ⟨⟨a, b, c⟩, d, e, f⟩ := hbc'
      have hc : Cong (g64.idx x y z) (g.idx x.toInt y.toInt z.toInt) :=
        (((cong_self x).sub (cong_self (origin 0))).add (((cong_self y).sub (cong_self (origin 1))).mul
          (cong_self (width 0)))).add (((cong_self z).sub (cong_self (origin 2))).mul
            ((cong_self (width 0)).mul (cong_self (width 1))))
      refine hc.toInt ?_ ?_
      · have h1 : 0 ≤ g.idx x.toInt y.toInt z.toInt := by
          have w0 := (hw 0).1
          have w1 := (hw 1).1
          refine add_nonneg (add_nonneg (by show 0 ≤ x.toInt - (origin 0).toInt; omega) (mul_nonneg ?_ w0.le))
            (mul_nonneg ?_ (mul_nonneg w0.le w1.le))
          · show 0 ≤ y.toInt - (origin 1).toInt; omega
          · show 0 ≤ z.toInt - (origin 2).toInt; omega
        norm_num; omega
      · show (x.toInt - (origin 0).toInt) + (y.toInt - (origin 1).toInt) * (width 0).toInt +
          (z.toInt - (origin 2).toInt) * ((width 0).toInt * (width 1).toInt) < 2 ^ 63
        obtain ⟨p0, q0⟩ := hw 0
        obtain ⟨p1, q1⟩ := hw 1
        obtain ⟨p2, q2⟩ := hw 2
        generalize (width 0).toInt = A at *
        generalize (width 1).toInt = B at *
        generalize (width 2).toInt = C at *
        have hX : x.toInt - (origin 0).toInt ≤ A - 1 := by omega
        have hY : y.toInt - (origin 1).toInt ≤ B - 1 := by omega
        have hZ : z.toInt - (origin 2).toInt ≤ C - 1 := by omega
        have m1 := mul_le_mul_of_nonneg_right hY p0.le
        have m2 := mul_le_mul_of_nonneg_right hZ (mul_pos p0 p1).le
        have m3 : A * B * C ≤ 2 ^ 21 * 2 ^ 21 * 2 ^ 21 :=
          mul_le_mul (mul_le_mul q0 q1 p1.le (by norm_num)) q2 p2.le (by norm_num)
        have e3 : A - 1 + (B - 1) * A + (C - 1) * (A * B) = A * B * C - 1 := by ring
        norm_num at m3 ⊢
        linarith
  · intro i hi
    unfold Grid64.coords Grid.coords
    have z1 : g64.length = 0 ↔ g.length = 0 := by
      rw [toInt_inj, toInt_zero]
      exact Iff.rfl
    have z2 : g64.area = 0 ↔ g.area = 0 := by rw [toInt_inj, toInt_zero, harea]
    have l0 : 0 < g64.length.toInt := (hw 0).1
    have a0 : 0 < g64.area.toInt := by rw [harea]; exact mul_pos (hw 0).1 (hw 1).1
    by_cases hz : g.length = 0 ∨ g.area = 0
    · rw [if_pos hz, if_pos (by rw [z1, z2]; exact hz)]
      rfl
    · rw [if_neg hz, if_neg (by rw [z1, z2]; exact hz)]
      simp only [Option.map_some]
      have h1 : 0 ≤ (i.srem g64.area).toInt := by
        rw [BitVec.toInt_srem]
        exact Int.tmod_nonneg _ hi
      rw [BitVec.toInt_srem, toInt_sdiv_pos h1 l0, BitVec.toInt_srem, toInt_sdiv_pos hi a0, harea]
      rfl

/-- C182: at most 2^20 cells along each axis, or any shape of fewer than 2^63 cells, have a volume that fits. -/
theorem C182_volume (origin width : Fin 3 → Word) (hw : ∀ i, 0 ≤ (width i).toInt)
    (hv : (width 0).toInt * (width 1).toInt * (width 2).toInt < 2 ^ 63) :
    (newGrid64 origin width).volume.toInt =
      (newGrid (fun i => (origin i).toInt) (fun i => (width i).toInt)).volume := by
  refine (((cong_self (width 0)).mul (cong_self (width 1))).mul (cong_self (width 2))).toInt ?_ hv
  have := mul_nonneg (mul_nonneg (hw 0) (hw 1)) (hw 2)
  norm_num; omega

/-- C182 fails beyond: with 2^21 cells along each axis the volume is negative; with 2^32 coordinates divide by zero. -/
theorem C182_counterexample :
    (newGrid64 (fun _ => 0) (fun _ => word (2 ^ 21))).volume.toInt = -2 ^ 63 ∧
    (newGrid64 (fun _ => 0) (fun _ => word (2 ^ 32))).coords 0 = none ∧
    ((newGrid64 (fun _ => 0) (fun _ => word (25 * 10 ^ 5))).idx 0 0 (word (25 * 10 ^ 5 - 1))).toInt < 0 := by
  decide +kernel

example : (∀ i : Fin 3, 0 < ((![word 5, word 7, word (2 ^ 21)] : Fin 3 → Word) i).toInt ∧
    ((![word 5, word 7, word (2 ^ 21)] : Fin 3 → Word) i).toInt ≤ 2 ^ 21) ∧
    ((newGrid64 (fun _ => word (-2)) ![word 5, word 7, word (2 ^ 21)]).idxCheck 0 1 2).1 = 2 + 3 * 5 + 4 * 35 := by
  decide +kernel

/-- C182 for the overlap of boxes along one axis. -/
theorem C182_intersect (o1 w1 o2 w2 width : Word) (h : ∀ v ∈ [o1, w1, o2, w2, width], -2 ^ 60 ≤ v.toInt ∧ v.toInt ≤ 2 ^ 60) :
    intersectAxis64 o1 w1 o2 w2 width = intersectAxis o1.toInt w1.toInt o2.toInt w2.toInt width.toInt := by
  simp only [List.mem_cons, List.not_mem_nil, or_false, forall_eq_or_imp, forall_eq] at h
  obtain ⟨h1, h2, h3, h4, h5⟩ := h
  have bnd : ∀ (x o : Word) (n : ℤ), x.toInt = n → -2 ^ 61 ≤ n → n ≤ 2 ^ 61 → -2 ^ 60 ≤ o.toInt → o.toInt ≤ 2 ^ 60 →
      (bound64 x o width).toInt = bound n o.toInt width.toInt := by
    intro x o n hx l1 l2 l3 l4
    subst hx
    have hd : (x - o).toInt = x.toInt - o.toInt :=
      ((cong_self x).sub (cong_self o)).toInt (by norm_num at *; omega) (by norm_num at *; omega)
    unfold bound64 bound
    simp only [slt_iff, toInt_zero, hd, decide_eq_true_eq, gt_iff_lt]
    split_ifs
    · rw [((cong_self (x - o)).add (cong_self width)).toInt (by rw [hd]; norm_num at *; omega)
        (by rw [hd]; norm_num at *; omega), hd]
    · rw [((cong_self (x - o)).sub (cong_self width)).toInt (by rw [hd]; norm_num at *; omega)
        (by rw [hd]; norm_num at *; omega), hd]
    · exact hd
  have sb : ∀ (a b c d : Word), -2 ^ 60 ≤ a.toInt → a.toInt ≤ 2 ^ 60 → -2 ^ 60 ≤ b.toInt → b.toInt ≤ 2 ^ 60 →
      -2 ^ 60 ≤ c.toInt → c.toInt ≤ 2 ^ 60 →
      intersectSB64 a b c d width = intersectSB a.toInt b.toInt c.toInt d.toInt width.toInt := by
    intro a b c d a1 a2 b1 b2 c1 c2
    have hs : (a + b).toInt = a.toInt + b.toInt :=
      ((cong_self a).add (cong_self b)).toInt (by norm_num at *; omega) (by norm_num at *; omega)
    unfold intersectSB64 intersectSB
    simp only [slt_iff]
    rw [bnd (a + b) c _ hs (by norm_num at *; omega) (by norm_num at *; omega) c1 c2,
      bnd a c _ rfl (by norm_num at *; omega) (by norm_num at *; omega) c1 c2]
  unfold intersectAxis64 intersectAxis
  simp only [slt_iff, decide_eq_true_eq]
  split_ifs
  · exact sb o1 w1 o2 w2 h1.1 h1.2 h2.1 h2.2 h3.1 h3.2
  · exact sb o2 w2 o1 w1 h3.1 h3.2 h4.1 h4.2 h1.1 h1.2

example : intersectAxis64 (word 5) (word 3) (word 7) (word 4) (word 10) = true := by decide +kernel

theorem compress_toInt (x y z dx dy dz n : Word) (hn : 0 < n.toInt ∧ n.toInt ≤ 2 ^ 20)
    (X Y Z DX DY DZ : ℤ) (hX : x.toInt = X) (hY : y.toInt = Y) (hZ : z.toInt = Z)
    (hDX : Cong dx DX) (hDY : Cong dy DY) (hDZ : Cong dz DZ) (h1 : 0 ≤ X + DX ∧ X + DX ≤ 2 * n.toInt)
    (h2 : 0 ≤ Y + DY ∧ Y + DY ≤ 2 * n.toInt) (h3 : 0 ≤ Z + DZ ∧ Z + DZ ≤ 2 * n.toInt) :
    (compressCoords64 x y z dx dy dz n).toInt = compressCoords X Y Z DX DY DZ n.toInt := by
  subst hX hY hZ
  have hc : Cong (compressCoords64 x y z dx dy dz n) (compressCoords x.toInt y.toInt z.toInt DX DY DZ n.toInt) :=
    (((cong_self x).add hDX).add (((cong_self y).add hDY).mul (cong_self n))).add
      ((((cong_self z).add hDZ).mul (cong_self n)).mul (cong_self n))
  obtain ⟨p, q⟩ := hn
  unfold compressCoords at hc ⊢
  simp only at hc ⊢
  generalize n.toInt = N at *
  refine hc.toInt ?_ ?_
  · have a2 := mul_nonneg h2.1 p.le
    have a3 := mul_nonneg (mul_nonneg h3.1 p.le) p.le
    norm_num; linarith [h1.1]
  · have a2 : (y.toInt + DY) * N ≤ 2 * N * N := mul_le_mul_of_nonneg_right h2.2 p.le
    have a3 : (z.toInt + DZ) * N * N ≤ 2 * N * N * N :=
      mul_le_mul_of_nonneg_right (mul_le_mul_of_nonneg_right h3.2 p.le) p.le
    have b2 : N * N ≤ 2 ^ 20 * 2 ^ 20 := mul_le_mul q q p.le (by norm_num)
    have b3 : N * N * N ≤ 2 ^ 20 * 2 ^ 20 * 2 ^ 20 := mul_le_mul b2 q p.le (by norm_num)
    norm_num at b2 b3 q ⊢
    linarith [h1.2]

/-- C182 for the corners of tetrahedra. -/
theorem C182_tetra (idx n skip : Word) (dir : ℤ) (hn : 0 < n.toInt ∧ n.toInt ≤ 2 ^ 20)
    (hi : 0 ≤ idx.toInt ∧ idx.toInt < n.toInt * n.toInt * n.toInt) (hs : 0 ≤ skip.toInt ∧ skip.toInt ≤ n.toInt) :
    (initIdxs64 idx n skip dir).map (fun c i => (c i).toInt) = initIdxs idx.toInt n.toInt skip.toInt dir := by
  unfold initIdxs64 initIdxs
  by_cases hd : 0 ≤ dir ∧ dir < 6
  · rw [dif_pos hd, dif_pos hd]
    have b2 : n.toInt * n.toInt ≤ 2 ^ 20 * 2 ^ 20 := mul_le_mul hn.2 hn.2 hn.1.le (by norm_num)
    have harea : (n * n).toInt = n.toInt * n.toInt := by
      refine ((cong_self n).mul (cong_self n)).toInt ?_ ?_
      · have := mul_pos hn.1 hn.1
        norm_num; omega
      · norm_num at b2 ⊢; omega
    have hapos : 0 < (n * n).toInt := by rw [harea]; exact mul_pos hn.1 hn.1
    have hn0 : ¬ n = 0 := by rw [toInt_inj, toInt_zero]; omega
    have ha0 : ¬ n * n = 0 := by rw [toInt_inj, toInt_zero]; omega
    simp only
    rw [if_neg (not_or.2 ⟨hn0, ha0⟩), if_neg (by omega)]
    simp only [Option.map_some, Option.some.injEq]
    have hx : (idx.srem n).toInt = idx.toInt.tmod n.toInt := BitVec.toInt_srem _ _
    have hm0 : 0 ≤ (idx.srem (n * n)).toInt := by
      rw [BitVec.toInt_srem]; exact Int.tmod_nonneg _ hi.1
    have hy : ((idx.srem (n * n)).sdiv n).toInt = (idx.toInt.tmod (n.toInt * n.toInt)).tdiv n.toInt := by
      rw [toInt_sdiv_pos hm0 hn.1, BitVec.toInt_srem, harea]
    have hz : (idx.sdiv (n * n)).toInt = idx.toInt.tdiv (n.toInt * n.toInt) := by
      rw [toInt_sdiv_pos hi.1 hapos, harea]
    have x1 : 0 ≤ idx.toInt.tmod n.toInt := Int.tmod_nonneg _ hi.1
    have x2 : idx.toInt.tmod n.toInt < n.toInt := Int.tmod_lt_of_pos _ hn.1
    have hsq : 0 < n.toInt * n.toInt := mul_pos hn.1 hn.1
    have y0 : 0 ≤ idx.toInt.tmod (n.toInt * n.toInt) := Int.tmod_nonneg _ hi.1
    have y1 : 0 ≤ (idx.toInt.tmod (n.toInt * n.toInt)).tdiv n.toInt := Int.tdiv_nonneg y0 hn.1.le
    have y2 : (idx.toInt.tmod (n.toInt * n.toInt)).tdiv n.toInt < n.toInt := by
      rw [Int.tdiv_eq_ediv_of_nonneg y0]
      exact Int.ediv_lt_of_lt_mul hn.1 (Int.tmod_lt_of_pos _ hsq)
    have z1 : 0 ≤ idx.toInt.tdiv (n.toInt * n.toInt) := Int.tdiv_nonneg hi.1 hsq.le
    have z2 : idx.toInt.tdiv (n.toInt * n.toInt) < n.toInt := by
      rw [Int.tdiv_eq_ediv_of_nonneg hi.1]
      exact Int.ediv_lt_of_lt_mul hsq (by linarith [hi.2, mul_assoc n.toInt n.toInt n.toInt])
    have hcs : ∀ e : ℤ, Cong (skip * word e) (skip.toInt * e) := fun e => (cong_self skip).mul (cong_word e)
    have key : ∀ e0 e1 e2 : ℤ, (e0 = 0 ∨ e0 = 1) → (e1 = 0 ∨ e1 = 1) → (e2 = 0 ∨ e2 = 1) →
        (compressCoords64 (idx.srem n) ((idx.srem (n * n)).sdiv n) (idx.sdiv (n * n)) (skip * word e0) (skip * word e1)
          (skip * word e2) n).toInt =
        compressCoords (idx.toInt.tmod n.toInt) ((idx.toInt.tmod (n.toInt * n.toInt)).tdiv n.toInt)
          (idx.toInt.tdiv (n.toInt * n.toInt)) (skip.toInt * e0) (skip.toInt * e1) (skip.toInt * e2) n.toInt := by
      intro e0 e1 e2 h0 h1 h2
      refine compress_toInt _ _ _ _ _ _ n hn _ _ _ _ _ _ hx hy hz (hcs e0) (hcs e1) (hcs e2) ?_ ?_ ?_
      · rcases h0 with rfl | rfl <;> constructor <;> simp <;> omega
      · rcases h1 with rfl | rfl <;> constructor <;> simp <;> omega
      · rcases h2 with rfl | rfl <;> constructor <;> simp <;> omega
    have dbit : ∀ (k : Fin 6) (j : Fin 2) (i : Fin 3), dirs k j i = 0 ∨ dirs k j i = 1 := by decide
    funext c
    fin_cases c
    · exact key _ _ _ (dbit _ _ _) (dbit _ _ _) (dbit _ _ _)
    · exact key _ _ _ (dbit _ _ _) (dbit _ _ _) (dbit _ _ _)
    · exact compress_toInt _ _ _ _ _ _ n hn _ _ _ _ _ _ hx hy hz (cong_self skip) (cong_self skip) (cong_self skip)
        (by constructor <;> omega) (by constructor <;> omega) (by constructor <;> omega)
    · rfl
  · rw [dif_neg hd, dif_neg hd]; rfl

example : (initIdxs64 (word 7) (word 4) (word 1) 2).map (fun c i => (c i).toInt) = some ![11, 12, 28, 7] := by decide +kernel

/-- C182 for the segments written from a snapshot: first particle and the index of each particle. -/
theorem C182_segment (sw idx cells n : Word) (hn : 0 < n.toInt ∧ n.toInt ≤ 2 ^ 20) (hc : 0 < cells.toInt) (hsw : 0 < sw.toInt)
    (hdiv : sw.toInt * cells.toInt = n.toInt) (hi : 0 ≤ idx.toInt ∧ idx.toInt < cells.toInt * cells.toInt * cells.toInt) :
    (segStart64 sw idx cells).map (fun c => (c.1.toInt, c.2.1.toInt, c.2.2.toInt)) =
      some (sw.toInt * idx.toInt.tmod cells.toInt, sw.toInt * (idx.toInt.tdiv cells.toInt).tmod cells.toInt,
        sw.toInt * idx.toInt.tdiv (cells.toInt * cells.toInt)) ∧
    ∀ x y z : Word, 0 ≤ x.toInt ∧ x.toInt ≤ n.toInt → 0 ≤ y.toInt ∧ y.toInt ≤ n.toInt → 0 ≤ z.toInt ∧ z.toInt ≤ n.toInt →
      (largeIdx64 n x y z).toInt = Main.wrapIdx n.toInt x.toInt + Main.wrapIdx n.toInt y.toInt * n.toInt +
        Main.wrapIdx n.toInt z.toInt * (n.toInt * n.toInt) := by
  have hcn : cells.toInt ≤ n.toInt := by nlinarith
  have b2 : n.toInt * n.toInt ≤ 2 ^ 20 * 2 ^ 20 := mul_le_mul hn.2 hn.2 hn.1.le (by norm_num)
  have b3 : n.toInt * n.toInt * n.toInt ≤ 2 ^ 20 * 2 ^ 20 * 2 ^ 20 := mul_le_mul b2 hn.2 hn.1.le (by norm_num)
  constructor
  · have c2 : cells.toInt * cells.toInt ≤ n.toInt * n.toInt := mul_le_mul hcn hcn hc.le hn.1.le
    have hsq : 0 < cells.toInt * cells.toInt := mul_pos hc hc
    have hcc : (cells * cells).toInt = cells.toInt * cells.toInt := by
      refine ((cong_self cells).mul (cong_self cells)).toInt ?_ ?_
      · norm_num; omega
      · norm_num at b2 ⊢; omega
    have hc0 : ¬ cells = 0 := by rw [toInt_inj, toInt_zero]; omega
    have hcc0 : ¬ cells * cells = 0 := by rw [toInt_inj, toInt_zero]; omega
    unfold segStart64
    rw [if_neg (not_or.2 ⟨hc0, hcc0⟩)]
    simp only [Option.map_some, Option.some.injEq, Prod.mk.injEq]
    have mulb : ∀ (q : Word) (Q : ℤ), q.toInt = Q → 0 ≤ Q → Q < cells.toInt → (sw * q).toInt = sw.toInt * Q := by
      intro q Q hq h0 h1
      subst hq
      refine ((cong_self sw).mul (cong_self q)).toInt ?_ ?_
      · have := mul_nonneg hsw.le h0
        norm_num; omega
      · have : sw.toInt * q.toInt ≤ sw.toInt * cells.toInt := mul_le_mul_of_nonneg_left h1.le hsw.le
        have := hn.2
        norm_num at *; omega
    have d0 : 0 ≤ idx.toInt.tdiv cells.toInt := Int.tdiv_nonneg hi.1 hc.le
    refine ⟨?_, ?_, ?_⟩
    · exact mulb _ _ (BitVec.toInt_srem _ _) (Int.tmod_nonneg _ hi.1) (Int.tmod_lt_of_pos _ hc)
    · refine mulb _ _ ?_ (Int.tmod_nonneg _ d0) (Int.tmod_lt_of_pos _ hc)
      rw [BitVec.toInt_srem, toInt_sdiv_pos hi.1 hc]
    · refine mulb _ _ ?_ (Int.tdiv_nonneg hi.1 hsq.le) ?_
      · rw [toInt_sdiv_pos hi.1 (by omega), hcc]
      · rw [Int.tdiv_eq_ediv_of_nonneg hi.1]
        exact Int.ediv_lt_of_lt_mul hsq (by linarith [hi.2, mul_assoc cells.toInt cells.toInt cells.toInt])
  · intro x y z hx hy hz
    have hw : ∀ v : Word, 0 ≤ v.toInt ∧ v.toInt ≤ n.toInt → (wrapIdx64 n v).toInt = Main.wrapIdx n.toInt v.toInt ∧
        0 ≤ Main.wrapIdx n.toInt v.toInt ∧ Main.wrapIdx n.toInt v.toInt ≤ n.toInt := by
      intro v hv
      unfold wrapIdx64 Main.wrapIdx
      by_cases h : v = n
      · rw [if_pos h, if_pos (by rw [h])]
        exact ⟨toInt_zero, le_refl _, hn.1.le⟩
      · rw [if_neg h, if_neg (fun h' => h (toInt_inj.2 h'))]
        exact ⟨rfl, hv⟩
    obtain ⟨x1, x2, x3⟩ := hw x hx
    obtain ⟨y1, y2, y3⟩ := hw y hy
    obtain ⟨z1, z2, z3⟩ := hw z hz
    have hcg : Cong (largeIdx64 n x y z) ((wrapIdx64 n x).toInt + (wrapIdx64 n y).toInt * n.toInt +
        (wrapIdx64 n z).toInt * (n.toInt * n.toInt)) :=
      ((cong_self _).add ((cong_self _).mul (cong_self n))).add ((cong_self _).mul ((cong_self n).mul (cong_self n)))
    rw [x1, y1, z1] at hcg
    refine hcg.toInt ?_ ?_
    · have a2 := mul_nonneg y2 hn.1.le
      have a3 := mul_nonneg z2 (mul_nonneg hn.1.le hn.1.le)
      norm_num; linarith
    · have a2 := mul_le_mul_of_nonneg_right y3 hn.1.le
      have a3 := mul_le_mul_of_nonneg_right z3 (mul_nonneg hn.1.le hn.1.le)
      have e3 : n.toInt * (n.toInt * n.toInt) = n.toInt * n.toInt * n.toInt := by ring
      have := hn.2
      norm_num at *
      linarith

example : (segStart64 (word 256) (word 13) (word 4)).map (fun c => (c.1.toInt, c.2.1.toInt, c.2.2.toInt)) =
    some (256, 768, 0) ∧ (largeIdx64 (word 1024) (word 1024) (word 5) (word 2)).toInt = 5 * 1024 + 2 * 1024 * 1024 := by
  decide +kernel

end Verif.Word
