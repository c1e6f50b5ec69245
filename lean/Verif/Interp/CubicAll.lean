import Verif.Interp.CubicAllModel
import Verif.Interp.Cubic
import Verif.Interp.Multi

/-! Uniform cubic interpolators, and `EvalAll` in two and three dimensions: property C151. -/

set_option autoImplicit false

namespace Verif.Interp

open Verif.Go

/-! ### Specification -/

/-- The slice that `EvalAll` returns for the values `vs`: an output slice keeps what is behind them. -/
def written (vs : List ℚ) (out : Option (List ℚ)) : List ℚ := vs ++ (out.getD []).drop vs.length

/-- The output slice, if there is one, has room for `n` values. -/
def Room (n : Nat) (out : Option (List ℚ)) : Prop := ∀ o, out = some o → n ≤ o.length

/-- `n` equally spaced grid lines. -/
def gridLines (x0 dx : ℚ) (n : Nat) : List ℚ := (List.range n).map (fun (i : Nat) => x0 + (i : ℚ) * dx)

/-! ### Lemmas -/

theorem mapM_length {α β : Type} {f : α → Option β} : ∀ {l : List α} {vs : List β}, l.mapM f = some vs → vs.length = l.length := by
  intro l
  induction l with
  | nil => intro vs h; simp at h; simp [h]
  | cons a l ih =>
    intro vs h
    rw [List.mapM_cons] at h
    cases hf : f a with
    | none => rw [hf] at h; simp at h
    | some v =>
      cases hr : l.mapM f with
      | none => rw [hf, hr] at h; simp at h
      | some vs' =>
        rw [hf, hr] at h
        simp only [bind, Option.bind_some, pure, Option.some.injEq] at h
        rw [← h]; simp [ih hr]

section
variable {σ α : Type} {eval : σ → α → σ × Option ℚ} {n : Nat} {pt : Int → Option α}

theorem evalAllM_run {pts : List α} (f : α → Option ℚ) (I : σ → Prop)
    (hstep : ∀ s p, I s → p ∈ pts → (eval s p).2 = f p ∧ I (eval s p).1) (hn : pts.length = n)
    (hpt : ∀ i : Nat, i < n → pt i = pts[i]?) (rest : List α) :
    ∀ (done : List α) (pre o : List ℚ) (s : σ), pts = done ++ rest → pre.length = done.length → I s → n ≤ (pre ++ o).length →
      (∀ vs, rest.mapM f = some vs → ∃ s', I s' ∧ forRange (pre.length : Int) n (evalTurn eval pt) (s, pre ++ o) = some (s', pre ++ vs ++ o.drop vs.length)) ∧
      (rest.mapM f = none → forRange (pre.length : Int) n (evalTurn eval pt) (s, pre ++ o) = none) := by
  induction rest with
  | nil =>
    intro done pre o s h1 h2 hI ho
    have hk : pre.length = n := by rw [h2, ← hn, h1, List.append_nil]
    constructor
    · intro vs hvs
      simp only [List.mapM_nil, Option.pure_def, Option.some.injEq] at hvs
      refine ⟨s, hI, ?_⟩
      rw [hk, forRange_empty (by omega), ← hvs]
      simp
    · intro h; simp at h
  | cons p rest ih =>
    intro done pre o s h1 h2 hI ho
    have hlt : pre.length < n := by rw [h2, ← hn, h1]; simp
    have hp : pt (pre.length : Int) = some p := by
      rw [hpt _ hlt, h1, h2, List.getElem?_append_right (by omega)]
      simp
    obtain ⟨e1, e2⟩ := hstep s p hI (by rw [h1]; simp)
    obtain ⟨o0, os, rfl⟩ : ∃ o0 os, o = o0 :: os := by
      cases o with
      | nil => simp at ho; omega
      | cons a b => exact ⟨a, b, rfl⟩
    cases hf : f p with
    | none =>
      constructor
      · intro vs hvs
        rw [List.mapM_cons, hf] at hvs
        simp at hvs
      · intro _
        rw [forRange_step (by omega)]
        simp only [evalTurn, hp, e1, hf, bind, Option.bind_some, Option.bind_none]
    | some v =>
      have hw : wr (pre ++ o0 :: os) (pre.length : Int) v = some ((pre ++ [v]) ++ os) := by
        rw [wr_natCast (by simp)]
        congr 1
        simp
      have hi := ih (done ++ [p]) (pre ++ [v]) os (eval s p).1 (by rw [h1]; simp) (by simp [h2]) e2
        (by simp at ho ⊢; omega)
      have hst : forRange (pre.length : Int) n (evalTurn eval pt) (s, pre ++ o0 :: os) = forRange (((pre ++ [v]).length : Nat) : Int) n
          (evalTurn eval pt) ((eval s p).1, (pre ++ [v]) ++ os) := by
        rw [forRange_step (by omega)]
        simp only [evalTurn, hp, e1, hf, hw, bind, Option.bind_some]
        simp
      constructor
      · intro vs hvs
        rw [List.mapM_cons, hf] at hvs
        cases hr : rest.mapM f with
        | none => rw [hr] at hvs; simp at hvs
        | some vs' =>
          rw [hr] at hvs
          simp only [bind, Option.bind_some, pure, Option.some.injEq] at hvs
          obtain ⟨s', i', e'⟩ := hi.1 vs' hr
          refine ⟨s', i', ?_⟩
          rw [hst, e', ← hvs]
          simp
      · intro hvs
        rw [List.mapM_cons, hf] at hvs
        cases hr : rest.mapM f with
        | none => rw [hst]; exact hi.2 hr
        | some vs' => rw [hr] at hvs; simp at hvs

theorem evalAllM_spec {pts : List α} (f : α → Option ℚ) (I : σ → Prop)
    (hstep : ∀ s p, I s → p ∈ pts → (eval s p).2 = f p ∧ I (eval s p).1) (hn : pts.length = n)
    (hpt : ∀ i : Nat, i < n → pt i = pts[i]?) {out : Option (List ℚ)} (ho : Room n out) {s : σ} (hI : I s) :
    (evalAllM eval n pt out s).map Prod.snd = (pts.mapM f).map (written · out) ∧
      ∀ s' vs, evalAllM eval n pt out s = some (s', vs) → I s' := by
  unfold evalAllM
  have hw : n ≤ (outSlice n out).length ∧
      ∀ vs : List ℚ, vs.length = n → vs ++ (outSlice n out).drop vs.length =
        written vs out := by
    cases out with
    | none => exact ⟨by simp [outSlice], fun vs h => by simp [written, outSlice, h]⟩
    | some o => exact ⟨ho o rfl, fun vs h => by simp [written, outSlice]⟩
  generalize (outSlice n out) = o at hw ⊢
  have key := evalAllM_run (eval := eval) (pt := pt) f I hstep hn hpt pts [] [] o s (by simp) rfl hI (by simpa using hw.1)
  simp only [List.length_nil, Nat.cast_zero, List.nil_append] at key
  cases hr : pts.mapM f with
  | none =>
    rw [key.2 hr]
    simp
  | some vs =>
    obtain ⟨s', i', e⟩ := key.1 vs hr
    have hl : vs.length = n := by rw [← hn]; exact mapM_length hr
    rw [e]
    refine ⟨?_, ?_⟩
    · simp only [Option.map_some]
      rw [hw.2 vs hl]
    · intro s'' vs' h
      simp only [Option.some.injEq, Prod.mk.injEq] at h
      rw [← h.1]; exact i'

end

theorem evalAllM_short {σ α : Type} {eval : σ → α → σ × Option ℚ} {n : Nat} {pt : Int → Option α} {out : Option (List ℚ)} {s : σ}
    (h : ¬ Room n out ∨ ∃ i : Nat, i < n ∧ pt i = none) : evalAllM eval n pt out s = none := by
  unfold evalAllM
  have hw : ¬ Room n out → (outSlice n out).length < n := by
    intro h
    cases out with
    | none => exact absurd (by intro o ho; simp at ho) h
    | some o =>
      by_contra c
      exact h (fun o' ho => by rw [← Option.some.inj ho]; exact not_lt.mp c)
  generalize (outSlice n out) = o at hw ⊢
  cases hr : forRange 0 (n : Int) (evalTurn eval pt) (s, o) with
  | none => rfl
  | some st =>
    exfalso
    obtain ⟨_, k2, k3⟩ := forRange_nat_inv
      (fun k (st : σ × List ℚ) => st.2.length = o.length ∧ k ≤ o.length ∧ ∀ i < k, pt ((i : Nat) : Int) ≠ none)
      (Nat.zero_le n) (evalTurn eval pt) (s, o) st ⟨rfl, Nat.zero_le _, by intro i hi; omega⟩ (by
        rintro j s s' _ hj ⟨a1, a2, a3⟩ e
        unfold evalTurn at e
        cases hp : pt (j : Int) with
        | none => rw [hp] at e; simp at e
        | some p =>
          rw [hp] at e
          cases hv : (eval s.1 p).2 with
          | none => simp [hv] at e
          | some v =>
            by_cases hl : j < s.2.length
            · simp only [bind, Option.bind_some, hv, wr_natCast hl, Option.some.injEq] at e
              subst e
              refine ⟨by simpa using a1, by omega, ?_⟩
              intro i hi
              rcases Nat.lt_succ_iff_lt_or_eq.mp hi with h | h
              · exact a3 i h
              · rw [h, hp]; simp
            · have : wr s.2 (j : Int) v = none := by
                unfold wr
                rw [if_neg (by omega)]
              simp [hv, this] at e) (by exact_mod_cast hr)
    rcases h with h | ⟨i, hi, h⟩
    · have := hw h; omega
    · exact k3 i hi h

theorem pt2_eq {xs ys : List ℚ} (hl : xs.length ≤ ys.length) (i : Nat) (hi : i < xs.length) :
    pt2 xs ys i = (xs.zip ys)[i]? := by
  have e1 : rd xs (i : Int) = some (xs.getD i 0) := by rw [rd_natCast, rd_getD hi]
  have e2 : rd ys (i : Int) = some (ys.getD i 0) := by rw [rd_natCast, rd_getD (show i < ys.length by omega)]
  unfold pt2
  simp only [e1, e2, bind, Option.bind_some]
  rw [rd_natCast] at e1 e2
  exact (List.getElem?_zip_eq_some (z := (xs.getD i 0, ys.getD i 0)).mpr ⟨e1, e2⟩).symm

theorem pt3_eq {xs ys zs : List ℚ} (hl : xs.length ≤ ys.length) (hz : xs.length ≤ zs.length) (i : Nat) (hi : i < xs.length) :
    pt3 xs ys zs i = (xs.zip (ys.zip zs))[i]? := by
  have e1 : rd xs (i : Int) = some (xs.getD i 0) := by rw [rd_natCast, rd_getD hi]
  have e2 : rd ys (i : Int) = some (ys.getD i 0) := by rw [rd_natCast, rd_getD (show i < ys.length by omega)]
  have e3 : rd zs (i : Int) = some (zs.getD i 0) := by rw [rd_natCast, rd_getD (show i < zs.length by omega)]
  unfold pt3
  simp only [e1, e2, e3, bind, Option.bind_some]
  rw [rd_natCast] at e1 e2 e3
  exact (List.getElem?_zip_eq_some (z := (xs.getD i 0, ys.getD i 0, zs.getD i 0)).mpr
    ⟨e1, List.getElem?_zip_eq_some (z := (ys.getD i 0, zs.getD i 0)).mpr ⟨e2, e3⟩⟩).symm

theorem pt2_short {xs ys : List ℚ} (h : ys.length < xs.length) : ∃ i : Nat, i < xs.length ∧ pt2 xs ys i = none := by
  refine ⟨ys.length, h, ?_⟩
  unfold pt2
  have e : rd ys (ys.length : Int) = none := by rw [rd_natCast]; simp
  rw [e]
  cases rd xs (ys.length : Int) <;> rfl

theorem pt3_short {xs ys zs : List ℚ} (h : ys.length < xs.length ∨ zs.length < xs.length) :
    ∃ i : Nat, i < xs.length ∧ pt3 xs ys zs i = none := by
  rcases h with h | h
  · refine ⟨ys.length, h, ?_⟩
    unfold pt3
    have e : rd ys (ys.length : Int) = none := by rw [rd_natCast]; simp
    rw [e]
    cases rd xs (ys.length : Int) <;> rfl
  · refine ⟨zs.length, h, ?_⟩
    unfold pt3
    have e : rd zs (zs.length : Int) = none := by rw [rd_natCast]; simp
    rw [e]
    cases rd xs (zs.length : Int) <;> cases rd ys (zs.length : Int) <;> rfl

theorem zip_len {xs ys : List ℚ} (h : xs.length ≤ ys.length) : (xs.zip ys).length = xs.length := by
  simp [h]

theorem zip3_len {xs ys zs : List ℚ} (h : xs.length ≤ ys.length) (hz : xs.length ≤ zs.length) :
    (xs.zip (ys.zip zs)).length = xs.length := by
  simp [h, hz]

theorem gridLines_length (x0 dx : ℚ) (n : Nat) : (gridLines x0 dx n).length = n := by simp [gridLines]

theorem gridLines_get {x0 dx : ℚ} {n i : Nat} (h : i < n) : (gridLines x0 dx n)[i]? = some (x0 + i * dx) := by
  simp [gridLines, h]

theorem gridLines_table {x0 dx : ℚ} (h : dx ≠ 0) {n : Nat} (hn : 3 ≤ n) : Table (gridLines x0 dx n) := by
  refine ⟨by rw [gridLines_length]; exact hn, ?_⟩
  have mono : ∀ R : ℚ → ℚ → Prop, (∀ i j : Nat, i < j → R (x0 + i * dx) (x0 + j * dx)) → (gridLines x0 dx n).Pairwise R := by
    intro R hR
    unfold gridLines
    rw [List.pairwise_map]
    exact List.pairwise_lt_range.imp (fun hab => hR _ _ hab)
  rcases lt_or_gt_of_ne h with h | h
  · right
    apply mono
    intro i j hij
    have : (i : ℚ) < j := by exact_mod_cast hij
    nlinarith
  · left
    apply mono
    intro i j hij
    have : (i : ℚ) < j := by exact_mod_cast hij
    nlinarith

theorem gridLines_in {y0 dy y : ℚ} {n : Nat} (hn : 0 < n) (h1 : min y0 (y0 + (n - 1) * dy) ≤ y)
    (h2 : y ≤ max y0 (y0 + (n - 1) * dy)) : InTab (gridLines y0 dy n) y := by
  have a : y0 ∈ gridLines y0 dy n := by
    refine List.mem_of_getElem? (i := 0) ?_
    rw [gridLines_get hn]; simp
  have b : y0 + (n - 1) * dy ∈ gridLines y0 dy n := by
    refine List.mem_of_getElem? (i := n - 1) ?_
    rw [gridLines_get (by omega), Nat.cast_sub (by omega)]; simp
  constructor
  · rcases min_le_iff.mp h1 with h | h
    · exact ⟨_, a, h⟩
    · exact ⟨_, b, h⟩
  · rcases le_max_iff.mp h2 with h | h
    · exact ⟨_, a, h⟩
    · exact ⟨_, b, h⟩

theorem newUniformBiCubic_eq (x0 dx y0 dy : ℚ) (nx ny : Nat) {vals : List ℚ} (hl : vals.length = nx * ny) :
    newUniformBiCubic x0 dx nx y0 dy ny vals = newBiCubic (gridLines x0 dx nx) (gridLines y0 dy ny) vals := by
  unfold newUniformBiCubic newBiCubic
  rw [if_neg (by rw [hl]; push_cast; simp), if_neg (by omega), gridLines_length, gridLines_length, if_neg (by simp [hl])]
  rfl

theorem newUniformTriCubic_eq (x0 dx y0 dy z0 dz : ℚ) (nx ny nz : Nat) {vals : List ℚ} (hl : vals.length = nx * ny * nz) :
    newUniformTriCubic x0 dx nx y0 dy ny z0 dz nz vals =
      newTriCubic (gridLines x0 dx nx) (gridLines y0 dy ny) (gridLines z0 dz nz) vals := by
  unfold newUniformTriCubic newTriCubic
  rw [if_neg (by rw [hl]; push_cast; simp), if_neg (by omega), gridLines_length, gridLines_length, gridLines_length,
    if_neg (by simp [hl])]
  rfl

theorem bi_after_snoc (bi : BiCubic) (hist : List (ℚ × ℚ)) (p : ℚ × ℚ) :
    ((bi.after hist).eval p.1 p.2).1 = bi.after (hist ++ [p]) := by
  simp [BiCubic.after, List.foldl_append]

theorem tri_after_snoc (tri : TriCubic) (hist : List (ℚ × ℚ × ℚ)) (p : ℚ × ℚ × ℚ) :
    ((tri.after hist).eval p.1 p.2.1 p.2.2).1 = tri.after (hist ++ [p]) := by
  simp [TriCubic.after, List.foldl_append]

/-! ### Theorems -/

/-- C151 for `BiLinear`: `EvalAll` returns the values of `Eval` at the points, in their order, panics if one of them does,
and leaves the rest of an output slice alone; it panics if `ys` or the output slice is too short. -/
theorem C151_bilinear_all (bi : BiLinear) (xs ys : List ℚ) (out : Option (List ℚ)) :
    (xs.length ≤ ys.length → Room xs.length out →
      bi.evalAll xs ys out = ((xs.zip ys).mapM (fun p => bi.eval p.1 p.2)).map (written · out)) ∧
    (ys.length < xs.length ∨ ¬ Room xs.length out → bi.evalAll xs ys out = none) := by
  constructor
  · intro h1 h2
    exact (evalAllM_spec (eval := fun (s : Unit) (p : ℚ × ℚ) => (s, bi.eval p.1 p.2)) (fun p => bi.eval p.1 p.2) (fun _ => True) (fun s p _ _ => ⟨rfl, trivial⟩) (zip_len h1)
      (pt2_eq h1) h2 trivial).1
  · intro h
    unfold BiLinear.evalAll
    rw [evalAllM_short (h.symm.imp id pt2_short)]
    rfl

example : ((newBiLinear [0, 1] [0, 2] [0, 1, 4, 5]).bind fun bi => bi.evalAll [0, 1, 1/2] [0, 2, 1, 7] (some [9, 9, 9, 9])) =
    some [0, 5, 5/2, 9] := by decide +kernel

/-- C151 for `TriLinear`. -/
theorem C151_trilinear_all (tri : TriLinear) (xs ys zs : List ℚ) (out : Option (List ℚ)) :
    (xs.length ≤ ys.length → xs.length ≤ zs.length → Room xs.length out →
      tri.evalAll xs ys zs out =
        ((xs.zip (ys.zip zs)).mapM (fun p => tri.eval p.1 p.2.1 p.2.2)).map (written · out)) ∧
    (ys.length < xs.length ∨ zs.length < xs.length ∨ ¬ Room xs.length out → tri.evalAll xs ys zs out = none) := by
  constructor
  · intro h1 h1' h2
    exact (evalAllM_spec (eval := fun (s : Unit) (p : ℚ × ℚ × ℚ) => (s, tri.eval p.1 p.2.1 p.2.2))
      (fun p => tri.eval p.1 p.2.1 p.2.2) (fun _ => True) (fun s p _ _ => ⟨rfl, trivial⟩) (zip3_len h1 h1')
      (pt3_eq h1 h1') h2 trivial).1
  · intro h
    unfold TriLinear.evalAll
    rw [evalAllM_short]
    · rfl
    · rcases h with h | h | h
      · exact Or.inr (pt3_short (Or.inl h))
      · exact Or.inr (pt3_short (Or.inr h))
      · exact Or.inl h

example : ((newTriLinear [0, 1] [0, 1] [0, 1] [0, 1, 2, 3, 4, 5, 6, 7]).bind fun tri =>
    tri.evalAll [0, 1, 1/2] [0, 1, 0] [0, 1, 0] none) = some [0, 7, 1/2] := by decide +kernel

/-- C151 for `BiCubic`: whatever was evaluated before, panicking calls included, `EvalAll` at points whose `y` lies in the
table returns the reference values at the points, in their order, and panics exactly if one of them does. -/
theorem C151_bicubic_all (xs ys vals : List ℚ) (tx : Table xs) (ty : Table ys) (hl : vals.length = xs.length * ys.length) :
    ∃ bi, newBiCubic xs ys vals = some bi ∧ ∀ (hist : List (ℚ × ℚ)) (px py : List ℚ) (out : Option (List ℚ)),
      (px.length ≤ py.length → Room px.length out → (∀ p ∈ px.zip py, InTab ys p.2) →
        ((bi.after hist).evalAll px py out).map Prod.snd =
          ((px.zip py).mapM (fun p => biRef xs ys vals p.1 p.2)).map (written · out)) ∧
      (py.length < px.length ∨ ¬ Room px.length out → (bi.after hist).evalAll px py out = none) := by
  obtain ⟨bi, e, h⟩ := C22_bicubic_partial xs ys vals tx ty hl
  refine ⟨bi, e, fun hist px py out => ⟨?_, ?_⟩⟩
  · intro h1 h2 h3
    exact (evalAllM_spec (eval := fun (s : BiCubic) (p : ℚ × ℚ) => s.eval p.1 p.2) (fun p => biRef xs ys vals p.1 p.2) (fun s => ∃ hist, s = bi.after hist) (by
      rintro s p ⟨hist, rfl⟩ hp
      exact ⟨h hist p.1 p.2 (Or.inl (h3 p hp)), _, bi_after_snoc bi hist p⟩) (zip_len h1) (pt2_eq h1) h2 ⟨hist, rfl⟩).1
  · intro h
    exact evalAllM_short (h.symm.imp id pt2_short)

example : ((newBiCubic [0, 1, 2] [3, 1, 0] [0, 1, 2, 10, 11, 12, 20, 21, 22]).bind fun bi =>
      ((bi.after [(0, 1), (7, 2), (1, 50)]).evalAll [2, 0, 1] [1, 3, 0] (some [0, 0, 0, 8])).map Prod.snd) =
    some [12, 0, 21, 8] := by
  decide +kernel

/-- C151 for `TriCubic`. -/
theorem C151_tricubic_all (xs ys zs vals : List ℚ) (tx : Table xs) (ty : Table ys) (tz : Table zs)
    (hl : vals.length = xs.length * ys.length * zs.length) :
    ∃ tri, newTriCubic xs ys zs vals = some tri ∧
      ∀ (hist : List (ℚ × ℚ × ℚ)) (px py pz : List ℚ) (out : Option (List ℚ)),
      (px.length ≤ py.length → px.length ≤ pz.length → Room px.length out →
        (∀ p ∈ px.zip (py.zip pz), InTab ys p.2.1 ∧ InTab zs p.2.2) →
        ((tri.after hist).evalAll px py pz out).map Prod.snd =
          ((px.zip (py.zip pz)).mapM (fun p => triRef xs ys zs vals p.1 p.2.1 p.2.2)).map (written · out)) ∧
      (py.length < px.length ∨ pz.length < px.length ∨ ¬ Room px.length out →
        (tri.after hist).evalAll px py pz out = none) := by
  obtain ⟨tri, e, h⟩ := C22_tricubic_partial xs ys zs vals tx ty tz hl
  refine ⟨tri, e, fun hist px py pz out => ⟨?_, ?_⟩⟩
  · intro h1 h1' h2 h3
    exact (evalAllM_spec (eval := fun (s : TriCubic) (p : ℚ × ℚ × ℚ) => s.eval p.1 p.2.1 p.2.2) (fun p => triRef xs ys zs vals p.1 p.2.1 p.2.2) (fun s => ∃ hist, s = tri.after hist) (by
      rintro s p ⟨hist, rfl⟩ hp
      exact ⟨h hist p.1 p.2.1 p.2.2 (Or.inl (h3 p hp)), _, tri_after_snoc tri hist p⟩) (zip3_len h1 h1') (pt3_eq h1 h1') h2
      ⟨hist, rfl⟩).1
  · intro h
    apply evalAllM_short
    rcases h with h | h | h
    · exact Or.inr (pt3_short (Or.inl h))
    · exact Or.inr (pt3_short (Or.inr h))
    · exact Or.inl h

example : ((newTriCubic [0, 1, 2] [0, 1, 2] [0, 1, 2] triData).bind fun tri =>
      ((tri.after [(0, 1, 1), (0, 9, 1), (0, 1, 9)]).evalAll [2, 0] [1, 1] [2, 0] none).map Prod.snd) = some [23, 3] := by
  decide +kernel

/-- C151, uniform bicubic tables of three or more lines either way, also with a negative spacing: the constructor returns an
interpolator which after any history gives the table at the grid points, and whose `EvalAll` at points between the first and
the last `y` line returns the reference values on those lines. A number of values other than `nx*ny` panics. -/
theorem C151_uniform_bicubic (x0 dx y0 dy : ℚ) (hdx : dx ≠ 0) (hdy : dy ≠ 0) (nx ny : Nat) (hnx : 3 ≤ nx) (hny : 3 ≤ ny)
    (vals : List ℚ) :
    (vals.length ≠ nx * ny → newUniformBiCubic x0 dx nx y0 dy ny vals = none) ∧
    (vals.length = nx * ny → ∃ bi, newUniformBiCubic x0 dx nx y0 dy ny vals = some bi ∧ ∀ hist : List (ℚ × ℚ),
      (∀ i j : Nat, i < nx → j < ny →
        ((bi.after hist).eval (x0 + i * dx) (y0 + j * dy)).2 = vals[nx * j + i]?) ∧
      ∀ (px py : List ℚ) (out : Option (List ℚ)), px.length ≤ py.length → Room px.length out →
        (∀ p ∈ px.zip py, min y0 (y0 + (ny - 1) * dy) ≤ p.2 ∧ p.2 ≤ max y0 (y0 + (ny - 1) * dy)) →
        ((bi.after hist).evalAll px py out).map Prod.snd =
          ((px.zip py).mapM (fun p => biRef (gridLines x0 dx nx) (gridLines y0 dy ny) vals p.1 p.2)).map (written · out)) := by
  constructor
  · intro h
    unfold newUniformBiCubic
    rw [if_pos (by intro c; exact h (by exact_mod_cast c.symm))]
  · intro hl
    have tx := gridLines_table (x0 := x0) hdx hnx
    have ty := gridLines_table (x0 := y0) hdy hny
    have hl' : vals.length = (gridLines x0 dx nx).length * (gridLines y0 dy ny).length := by
      rw [gridLines_length, gridLines_length, hl]
    obtain ⟨bi, e, h1⟩ := C151_bicubic_all _ _ vals tx ty hl'
    obtain ⟨bi', e', h2⟩ := C89_bicubic_grid _ _ vals tx ty hl'
    obtain rfl : bi = bi' := by rw [e] at e'; exact Option.some.inj e'
    refine ⟨bi, by rw [newUniformBiCubic_eq _ _ _ _ _ _ hl, e], fun hist => ⟨?_, ?_⟩⟩
    · intro i j hi hj
      have hlt : nx * j + i < vals.length := by rw [hl]; nlinarith
      rw [rd_getD hlt]
      exact h2 hist i j _ _ _ (gridLines_get hi) (gridLines_get hj) (by rw [gridLines_length]; exact rd_getD hlt)
    · intro px py out a b c
      exact (h1 hist px py out).1 a b (fun p hp => gridLines_in (by omega) (c p hp).1 (c p hp).2)

example : ((newUniformBiCubic 1 (-1/2) 3 0 2 3 [0, 1, 2, 10, 11, 12, 20, 21, 22]).bind fun bi =>
      ((bi.after [(0, 1), (7, 2), (1, 50)]).evalAll [0, 1/2] [4, 2] none).map Prod.snd) = some [22, 11] := by
  decide +kernel

/-- C151, uniform tricubic tables. -/
theorem C151_uniform_tricubic (x0 dx y0 dy z0 dz : ℚ) (hdx : dx ≠ 0) (hdy : dy ≠ 0) (hdz : dz ≠ 0) (nx ny nz : Nat)
    (hnx : 3 ≤ nx) (hny : 3 ≤ ny) (hnz : 3 ≤ nz) (vals : List ℚ) :
    (vals.length ≠ nx * ny * nz → newUniformTriCubic x0 dx nx y0 dy ny z0 dz nz vals = none) ∧
    (vals.length = nx * ny * nz → ∃ tri, newUniformTriCubic x0 dx nx y0 dy ny z0 dz nz vals = some tri ∧
      ∀ hist : List (ℚ × ℚ × ℚ),
      (∀ i j k : Nat, i < nx → j < ny → k < nz →
        ((tri.after hist).eval (x0 + i * dx) (y0 + j * dy) (z0 + k * dz)).2 = vals[nx * ny * k + nx * j + i]?) ∧
      ∀ (px py pz : List ℚ) (out : Option (List ℚ)), px.length ≤ py.length → px.length ≤ pz.length → Room px.length out →
        (∀ p ∈ px.zip (py.zip pz), min y0 (y0 + (ny - 1) * dy) ≤ p.2.1 ∧ p.2.1 ≤ max y0 (y0 + (ny - 1) * dy) ∧
          min z0 (z0 + (nz - 1) * dz) ≤ p.2.2 ∧ p.2.2 ≤ max z0 (z0 + (nz - 1) * dz)) →
        ((tri.after hist).evalAll px py pz out).map Prod.snd =
          ((px.zip (py.zip pz)).mapM (fun p => triRef (gridLines x0 dx nx) (gridLines y0 dy ny) (gridLines z0 dz nz) vals
            p.1 p.2.1 p.2.2)).map (written · out)) := by
  constructor
  · intro h
    unfold newUniformTriCubic
    rw [if_pos (by intro c; exact h (by exact_mod_cast c.symm))]
  · intro hl
    have tx := gridLines_table (x0 := x0) hdx hnx
    have ty := gridLines_table (x0 := y0) hdy hny
    have tz := gridLines_table (x0 := z0) hdz hnz
    have hl' : vals.length = (gridLines x0 dx nx).length * (gridLines y0 dy ny).length * (gridLines z0 dz nz).length := by
      rw [gridLines_length, gridLines_length, gridLines_length, hl]
    obtain ⟨tri, e, h1⟩ := C151_tricubic_all _ _ _ vals tx ty tz hl'
    obtain ⟨tri', e', h2⟩ := C89_tricubic_grid _ _ _ vals tx ty tz hl'
    obtain rfl : tri = tri' := by rw [e] at e'; exact Option.some.inj e'
    refine ⟨tri, by rw [newUniformTriCubic_eq _ _ _ _ _ _ _ _ _ hl, e], fun hist => ⟨?_, ?_⟩⟩
    · intro i j k hi hj hk
      have hlt : nx * ny * k + nx * j + i < vals.length := by
        rw [hl]
        have a : nx * j + i < nx * ny := by nlinarith
        nlinarith
      rw [rd_getD hlt]
      exact h2 hist i j k _ _ _ _ (gridLines_get hi) (gridLines_get hj) (gridLines_get hk)
        (by rw [gridLines_length, gridLines_length]; exact rd_getD hlt)
    · intro px py pz out a a' b c
      exact (h1 hist px py pz out).1 a a' b (fun p hp =>
        ⟨gridLines_in (by omega) (c p hp).1 (c p hp).2.1, gridLines_in (by omega) (c p hp).2.2.1 (c p hp).2.2.2⟩)

example : ((newUniformTriCubic 0 1 3 0 1 3 2 (-1) 3 triData).bind fun tri =>
      ((tri.after [(0, 1, 1), (0, 9, 1), (0, 1, 9)]).evalAll [2, 0] [1, 1] [2, 0] none).map Prod.snd) = some [5, 21] := by
  decide +kernel

/-- C151: a negative number of lines along any axis panics, even where the product of the sizes matches the number of
values. -/
theorem C151_uniform_negative (x0 dx y0 dy z0 dz : ℚ) (nx ny nz : Int) (vals : List ℚ) :
    (nx < 0 ∨ ny < 0 → newUniformBiCubic x0 dx nx y0 dy ny vals = none) ∧
    (nx < 0 ∨ ny < 0 ∨ nz < 0 → newUniformTriCubic x0 dx nx y0 dy ny z0 dz nz vals = none) := by
  unfold newUniformBiCubic newUniformTriCubic
  constructor
  · intro h
    split_ifs
    · rfl
    · rfl
  · intro h
    split_ifs
    · rfl
    · rfl

example : newUniformBiCubic 0 1 0 0 1 (-3) [] = none ∧ newUniformTriCubic 0 1 (-1) 0 1 (-1) 0 1 3 [1, 2, 3] = none :=
  ⟨(C151_uniform_negative 0 1 0 1 0 1 0 (-3) 0 []).1 (by norm_num),
    (C151_uniform_negative 0 1 0 1 0 1 (-1) (-1) 3 [1, 2, 3]).2 (by norm_num)⟩

end Verif.Interp
