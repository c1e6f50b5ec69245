import Verif.Halo.Catalog

/-!
# C100: the top-N conversion; C101: values by flag
-/

set_option autoImplicit false

namespace Verif.Halo

open Verif.Go Verif.Io

theorem idxSet_run (X : ℕ → ℝ) (p : List ℕ) (swaps : List (ℤ × ℤ)) (h : InRange p.length swaps) :
    ∃ q : List ℕ, q.Perm p ∧ (IdxSet.mk (p.map X) (p.map fun (i : ℕ) => (i : ℤ))).run swaps =
      some ⟨q.map X, q.map fun (i : ℕ) => (i : ℤ)⟩ := by
  induction swaps generalizing p with
  | nil => exact ⟨p, List.Perm.refl _, rfl⟩
  | cons s swaps ih =>
    obtain ⟨⟨i0, i1⟩, j0, j1⟩ := h s List.mem_cons_self
    have hp := exchange_perm p i0 i1 j0 j1
    obtain ⟨q, hq, e⟩ := ih _ (by
      rw [hp.length_eq]
      exact fun t ht => h t (List.mem_cons_of_mem _ ht))
    refine ⟨q, hq.trans hp, ?_⟩
    unfold IdxSet.run at e ⊢
    rw [List.foldlM_cons]
    refine bind_of ?_ e
    unfold IdxSet.swap
    exact bind_of (exchange_map X p i0 i1 j0 j1) (bind_of (exchange_map _ p i0 i1 j0 j1) rfl)

theorem mapM_rows {α : Type} (d : α) {col : List α} {n : ℕ} (hl : col.length = n) (rows : List ℕ)
    (h : ∀ i ∈ rows, i < n) :
    (rows.map fun (i : ℕ) => (i : ℤ)).mapM (rd col) = some (rows.map fun i => col.getD i d) := by
  induction rows with
  | nil => rfl
  | cons a rows ih =>
    rw [List.map_cons, List.mapM_cons]
    have ha := h a List.mem_cons_self
    refine bind_of (a := col.getD a d) ?_ (bind_of (ih fun i hi => h i (List.mem_cons_of_mem _ hi)) rfl)
    rw [rd_getElem (by omega)]
    simp [List.getD_eq_getElem?_getD, hl, ha]

theorem mapM_cols {α β : Type} {cols : List α} {f : α → Option β} {g : α → β} (h : ∀ a ∈ cols, f a = some (g a)) :
    cols.mapM f = some (cols.map g) := by
  induction cols with
  | nil => rfl
  | cons a cols ih =>
    rw [List.mapM_cons]
    exact bind_of (h a List.mem_cons_self) (bind_of (ih fun b hb => h b (List.mem_cons_of_mem _ hb)) rfl)

/-- C100: the file holds exactly the rows of the `min N n` most massive halos (by M200b), each once, in order of increasing
mass: reading any columns of it gives the columns of the text catalogue at these rows, and no row that was left out is more
massive than one that was kept. -/
theorem C100_topN (val : Word 8 → ℝ) (swaps : List (ℤ × ℤ)) (tbl : List (List (Word 8))) (n N : ℕ) (ht : IsTable tbl n)
    (hn : n < 2 ^ 63) (hw : 62 ≤ tbl.length) (hs : InRange n swaps)
    (hsorted : ∀ s, (idxSet ((List.range n).map fun i => val (entry 0 tbl 36 i))).run swaps = some s → SortedBy s.less n) :
    ∃ (file : List Byte) (rows : List ℕ), rockstarConvertTopN val swaps tbl N = .ok file ∧ rows.length = min N n ∧ rows.Nodup ∧
      (∀ i ∈ rows, i < n) ∧ (rows.Pairwise fun i j => val (entry 0 tbl 36 i) ≤ val (entry 0 tbl 36 j)) ∧
      (∀ i ∈ rows, ∀ j < n, j ∉ rows → val (entry 0 tbl 36 j) ≤ val (entry 0 tbl 36 i)) ∧
      ∀ idxs : List ℕ, (∀ c ∈ idxs, c < 62) →
        binaryColGetter file (idxs.map fun (i : ℕ) => (i : ℤ)) = .ok (idxs.map fun c => rows.map (entry 0 tbl c)) := by
  set X : ℕ → ℝ := fun i => val (entry 0 tbl 36 i) with hX
  obtain ⟨q, hq, e⟩ := idxSet_run X (List.range n) swaps (by simpa using hs)
  have hset : idxSet ((List.range n).map X) = ⟨(List.range n).map X, (List.range n).map fun (i : ℕ) => (i : ℤ)⟩ := by
    unfold idxSet
    rw [List.length_map, List.length_range]
  have hql : q.length = n := by rw [hq.length_eq, List.length_range]
  have hqn : q.Nodup := hq.nodup_iff.mpr List.nodup_range
  have hqm : ∀ i, i ∈ q ↔ i < n := fun i => by rw [hq.mem_iff, List.mem_range]
  have hso := hsorted _ (hset ▸ e)
  have hpw : q.Pairwise fun i j => X i ≤ X j := by
    apply chain_pairwise
    · exact fun a b c h1 h2 => le_trans h1 h2
    · intro k hk
      have := hso k (by omega)
      unfold IdxSet.less at this
      dsimp only at this
      rw [show ((k : ℤ) + 1) = ((k + 1 : ℕ) : ℤ) by push_cast; rfl, rd_getElem (i := k) (by simp; omega)] at this
      have h2 := rd_getElem (xs := q.map X) (i := k + 1) (by simp; omega)
      rw [h2] at this
      simpa using this
  set k := min N n with hk
  set rows := q.drop (n - k) with hrows
  have hrl : rows.length = k := by rw [hrows, List.length_drop, hql]; omega
  have hrn : ∀ i ∈ rows, i < n := fun i hi => (hqm i).mp (List.mem_of_mem_drop hi)
  have h62 : ∀ i ∈ List.range 62, i < tbl.length := fun i hi => by rw [List.mem_range] at hi; omega
  have ht62 := isTable_map ht h62
  set cols := (List.range 62).map fun i => tbl.getD i [] with hcols
  set outCols := cols.map fun col => rows.map fun i => col.getD i (0 : Word 8) with hout
  have htout : IsTable outCols k := by
    intro col hc
    rw [hout, List.mem_map] at hc
    obtain ⟨c, _, rfl⟩ := hc
    rw [List.length_map, hrl]
  refine ⟨encodeCatalog k outCols, rows, ?_, hrl, hqn.sublist (List.drop_sublist _ _), hrn,
    hpw.sublist (List.drop_sublist _ _), ?_, ?_⟩
  · unfold rockstarConvertTopN
    refine Res.bind_ok (readTable_ok tbl (List.range 62) h62) ?_
    refine Res.bind_ok (a := tbl.getD 0 []) rfl ?_
    have hk' : (if (N : ℤ) > ((tbl.getD 0 []).length : ℤ) then ((tbl.getD 0 []).length : ℤ) else (N : ℤ)) = (k : ℤ) := by
      rw [col_length ht (by omega)]
      split_ifs <;> omega
    refine Res.bind_ok (a := tbl.getD 36 []) rfl ?_
    refine Res.bind_ok (a := q.map fun (i : ℕ) => (i : ℤ)) ?_ ?_
    · have : idxSort swaps ((tbl.getD 36 []).map val) = some (q.map fun (i : ℕ) => (i : ℤ)) := by
        unfold idxSort
        rw [col_eq 0 ht (c := 36) (by omega), List.map_map, show val ∘ entry 0 tbl 36 = X from rfl, hset]
        exact bind_of e rfl
      rw [this]
      rfl
    rw [hk', col_length ht (by omega)]
    refine Res.bind_ok (a := rows.map fun (i : ℕ) => (i : ℤ)) ?_ ?_
    · have : sliceFrom (q.map fun (i : ℕ) => (i : ℤ)) ((n : ℤ) - k) = some (rows.map fun (i : ℕ) => (i : ℤ)) := by
        unfold sliceFrom
        rw [if_pos (by rw [List.length_map, hql]; omega), show ((n : ℤ) - k).toNat = n - k by omega, hrows, List.map_drop]
      rw [this]
      rfl
    · refine Res.bind_ok (a := outCols) ?_ rfl
      have := mapM_cols (cols := cols) (f := fun col => (rows.map fun (i : ℕ) => (i : ℤ)).mapM (rd col))
        (g := fun col => rows.map fun i => col.getD i (0 : Word 8)) (fun col hc => mapM_rows 0 (ht62 col hc) rows hrn)
      rw [this]
      rfl
  · intro i hi j hj hjr
    have hjq := (hqm j).mpr hj
    rw [← List.take_append_drop (n - k) q, List.mem_append] at hjq
    rcases hjq with h | h
    · have hpw' := hpw
      rw [← List.take_append_drop (n - k) q, List.pairwise_append] at hpw'
      exact hpw'.2.2 j h i hi
    · exact absurd h hjr
  · intro idxs hidx
    rw [getter_ok htout (by omega) idxs (fun c hc => by have := hidx c hc; simp [hout, hcols]; omega)]
    congr 1
    refine List.map_congr_left fun c hc => ?_
    have hc' := hidx c hc
    rw [List.getD_eq_getElem?_getD, hout, List.getElem?_map, hcols, List.getElem?_map, List.getElem?_range hc']
    rfl

/-- C100: a negative count panics, if the catalogue can be read. -/
theorem C100_negative (val : Word 8 → ℝ) (swaps : List (ℤ × ℤ)) (tbl : List (List (Word 8))) (n : ℕ) (N : ℤ) (ht : IsTable tbl n)
    (hw : 62 ≤ tbl.length) (hs : InRange n swaps) (hN : N < 0) : rockstarConvertTopN val swaps tbl N = .panic := by
  obtain ⟨q, hq, e⟩ := idxSet_run (fun i => val (entry 0 tbl 36 i)) (List.range n) swaps (by simpa using hs)
  have hql : q.length = n := by rw [hq.length_eq, List.length_range]
  have h62 : ∀ i ∈ List.range 62, i < tbl.length := fun i hi => by rw [List.mem_range] at hi; omega
  unfold rockstarConvertTopN
  refine Res.bind_ok (readTable_ok tbl (List.range 62) h62) ?_
  refine Res.bind_ok (a := tbl.getD 0 []) rfl ?_
  refine Res.bind_ok (a := tbl.getD 36 []) rfl ?_
  refine Res.bind_ok (a := q.map fun (i : ℕ) => (i : ℤ)) ?_ ?_
  · have : idxSort swaps ((tbl.getD 36 []).map val) = some (q.map fun (i : ℕ) => (i : ℤ)) := by
      unfold idxSort idxSet
      rw [col_eq 0 ht (c := 36) (by omega), List.map_map, List.length_map, List.length_range]
      exact bind_of e rfl
    rw [this]
    rfl
  rw [col_length ht (by omega), if_neg (by omega)]
  have : sliceFrom (q.map fun (i : ℕ) => (i : ℤ)) ((n : ℤ) - N) = none := by
    unfold sliceFrom
    rw [if_neg (by rw [List.length_map, hql]; omega)]
  rw [this]
  rfl

/-- A sorted catalogue needs no exchanges. -/
example : ∃ (file : List Byte) (rows : List ℕ), rockstarConvertTopN (fun w => (w.toNat : ℝ)) [] exampleWords 1 = .ok file ∧ rows = [1] ∧
    binaryColGetter file [36] = .ok [[2]] := by
  have ht : IsTable exampleWords 2 := by
    intro col hc
    rw [(List.mem_replicate.mp hc).2]
    rfl
  obtain ⟨file, rows, e, hl, -, hlt, -, hmax, hread⟩ := C100_topN (fun w => (w.toNat : ℝ)) [] exampleWords 2 1 ht
    (by norm_num) (by simp [exampleWords]) (by intro p hp; simp at hp) (by
      intro s hs k hk
      have hk' : k = 0 := by omega
      subst hk'
      unfold IdxSet.run at hs
      rw [List.foldlM_nil] at hs
      cases hs
      show some (((2 : Word 8).toNat : ℝ) < ((1 : Word 8).toNat : ℝ)) = some False
      norm_num
      decide)
  have hr : ∃ a, rows = [a] := List.length_eq_one_iff.mp hl
  obtain ⟨a, rfl⟩ := hr
  have ha : a < 2 := hlt a (by simp)
  have ha1 : a = 1 := by
    by_contra hne
    have ha0 : a = 0 := by omega
    subst ha0
    have := hmax 0 (by simp) 1 (by norm_num) (by simp)
    have h2 : ((2 : Word 8).toNat : ℝ) ≤ ((1 : Word 8).toNat : ℝ) := this
    norm_num at h2
    exact absurd h2 (by decide)
  subst ha1
  refine ⟨file, _, e, rfl, ?_⟩
  exact hread [36] (by simp)

example := C100_negative (fun _ => 0) [] exampleWords 2 (-1) (by
    intro col hc
    rw [(List.mem_replicate.mp hc).2]
    rfl) (by simp [exampleWords]) (by intro p hp; simp at hp) (by norm_num)

/-! ## C101 -/

/-- The column that a flag asks for. -/
def wantedColumn (v : ℕ) : ℕ := if v < 62 then v else if v = 63 then 10 else v - 28

/-- What is done to its values: radii from masses, kpc to Mpc, or nothing. -/
noncomputable def wantedValue (c : CosmologyHeader) (v : ℕ) (x : ℝ) : ℝ :=
  if v = 63 then radiusOf 0 c x else if v = 64 then radiusOf 2 c x else if v = 65 then radiusOf 1 c x
  else if v = 66 then radiusOf 3 c x else if v = 67 then radiusOf 4 c x
  else if v = 11 ∨ v = 12 ∨ v = 34 then x / 1000 else x

/-- The flags a caller can use: the columns of the table and the five radii. -/
def IsFlag (v : ℕ) : Prop := v < 62 ∨ 63 ≤ v ∧ v < 68

theorem colOf_eq {v : ℕ} (h : IsFlag v) : colOf v = wantedColumn v ∧ wantedColumn v < 62 := by
  unfold IsFlag at h
  unfold colOf wantedColumn
  split_ifs <;> omega

theorem convertCol_eq (c : CosmologyHeader) (v : ℕ) (col : List ℝ) :
    convertCol c v col = some (col.map (wantedValue c v)) := by
  have hc : ∀ k : ℕ, ((v : ℤ) = (k : ℤ)) ↔ v = k := fun k => by omega
  unfold convertCol
  rw [show (63 : ℤ) = ((63 : ℕ) : ℤ) from rfl, show (64 : ℤ) = ((64 : ℕ) : ℤ) from rfl, show (65 : ℤ) = ((65 : ℕ) : ℤ) from rfl,
    show (66 : ℤ) = ((66 : ℕ) : ℤ) from rfl, show (67 : ℤ) = ((67 : ℕ) : ℤ) from rfl, show (12 : ℤ) = ((12 : ℕ) : ℤ) from rfl,
    show (11 : ℤ) = ((11 : ℕ) : ℤ) from rfl, show (34 : ℤ) = ((34 : ℕ) : ℤ) from rfl]
  simp only [hc]
  by_cases h1 : v = 63
  · subst h1; rw [if_pos rfl, radiusInPlace_eq]; rfl
  by_cases h2 : v = 64
  · subst h2; rw [if_neg h1, if_pos rfl, radiusInPlace_eq]; rfl
  by_cases h3 : v = 65
  · subst h3; rw [if_neg h1, if_neg h2, if_pos rfl, radiusInPlace_eq]; rfl
  by_cases h4 : v = 66
  · subst h4; rw [if_neg h1, if_neg h2, if_neg h3, if_pos rfl, radiusInPlace_eq]; rfl
  by_cases h5 : v = 67
  · subst h5; rw [if_neg h1, if_neg h2, if_neg h3, if_neg h4, if_pos rfl, radiusInPlace_eq]; rfl
  rw [if_neg h1, if_neg h2, if_neg h3, if_neg h4, if_neg h5]
  by_cases h6 : v = 12 ∨ v = 11 ∨ v = 34
  · rw [if_pos h6]
    have h6' : v = 11 ∨ v = 12 ∨ v = 34 := by omega
    refine (convert_inPlace (fun x : ℝ => x / 1000) col).trans ?_
    congr 1
    refine List.map_congr_left fun x _ => ?_
    unfold wantedValue
    rw [if_neg h1, if_neg h2, if_neg h3, if_neg h4, if_neg h5, if_pos h6']
  · rw [if_neg h6]
    have h6' : ¬ (v = 11 ∨ v = 12 ∨ v = 34) := by omega
    congr 1
    conv_lhs => rw [← List.map_id col]
    refine List.map_congr_left fun x _ => ?_
    unfold wantedValue
    rw [if_neg h1, if_neg h2, if_neg h3, if_neg h4, if_neg h5, if_neg h6']
    rfl

/-- The conversion loop changes the columns one by one and leaves the identities alone. -/
theorem convert_loop (c : CosmologyHeader) (flags : List ℕ) (c0 : List ℝ) (cols : List (List ℝ)) (hl : cols.length = flags.length) :
    forRange 0 flags.length (fun i vals => do
      let v ← rd (flags.map fun (i : ℕ) => (i : ℤ)) i
      let col ← rd vals (i + 1)
      let col ← convertCol c v col
      wr vals (i + 1) col) (c0 :: cols) =
      some (c0 :: List.zipWith (fun v (col : List ℝ) => col.map (wantedValue c v)) flags cols) := by
  obtain ⟨s, e, h1, h2, h3⟩ := forRange_nat (fun k (s : List (List ℝ)) => s.length = cols.length + 1 ∧
      (∀ j, j < k → s[j + 1]? = (List.zipWith (fun v (col : List ℝ) => col.map (wantedValue c v)) flags cols)[j]?) ∧
      ∀ j, (j = 0 ∨ k < j) → s[j]? = (c0 :: cols)[j]?) (lo := 0) (hi := flags.length) (Nat.zero_le _)
    (fun i vals => do
      let v ← rd (flags.map fun (i : ℕ) => (i : ℤ)) i
      let col ← rd vals (i + 1)
      let col ← convertCol c v col
      wr vals (i + 1) col) (c0 :: cols) ⟨rfl, fun j hj => absurd hj (by omega), fun j _ => rfl⟩ (by
    rintro k s - hk ⟨h1, h2, h3⟩
    have hkc : k < cols.length := by omega
    have hsk : s[k + 1]? = some cols[k] := by
      rw [h3 (k + 1) (.inr (by omega)), List.getElem?_cons_succ, List.getElem?_eq_getElem hkc]
    refine ⟨s.set (k + 1) (cols[k].map (wantedValue c flags[k])), ?_, ?_, ?_, ?_⟩
    · refine bind_of (rd_getElem (by simpa using hk)) ?_
      refine bind_of (a := cols[k]) ?_ ?_
      · rw [show ((k : ℤ) + 1) = ((k + 1 : ℕ) : ℤ) by push_cast; rfl, rd_natCast, hsk]
      rw [List.getElem_map]
      refine bind_of (convertCol_eq c _ _) ?_
      rw [show ((k : ℤ) + 1) = ((k + 1 : ℕ) : ℤ) by push_cast; rfl, wr_natCast (by omega)]
    · rw [List.length_set, h1]
    · intro j hj
      by_cases hjk : j = k
      · subst hjk
        rw [List.getElem?_set_self (by omega), List.getElem?_zipWith, List.getElem?_eq_getElem hk, List.getElem?_eq_getElem hkc]
      · rw [List.getElem?_set_ne (by omega)]
        exact h2 j (by omega)
    · intro j hj
      rw [List.getElem?_set_ne (by omega)]
      exact h3 j (by omega))
  refine e.trans ?_
  congr 1
  apply List.ext_getElem?
  intro j
  rcases j with _ | j
  · exact h3 0 (.inl rfl)
  · rw [List.getElem?_cons_succ]
    by_cases hj : j < flags.length
    · exact h2 j hj
    · rw [List.getElem?_eq_none (by omega), List.getElem?_eq_none (by simp; omega)]

/-- `readRockstarVals` with any getter that delivers the columns of a table. -/
theorem readVals_ok (getter : List ℤ → Res (List (List ℝ))) (tbl : List (List ℝ)) (c : CosmologyHeader) (flags : List ℕ)
    (hf : ∀ v ∈ flags, IsFlag v)
    (hg : ∀ idxs : List ℕ, (∀ i ∈ idxs, i < 62) →
      getter (idxs.map fun (i : ℕ) => (i : ℤ)) = .ok (idxs.map fun i => tbl.getD i [])) :
    readRockstarVals getter c (flags.map fun (i : ℕ) => (i : ℤ)) =
      .ok ((tbl.getD 1 []).map truncReal, flags.map fun v => (tbl.getD (wantedColumn v) []).map (wantedValue c v)) := by
  have hcols : (1 :: (flags.map fun (i : ℕ) => (i : ℤ)).map colOf) = ((1 :: flags.map wantedColumn).map fun (i : ℕ) => (i : ℤ)) := by
    rw [List.map_cons, List.map_map, List.map_map]
    congr 1
    exact List.map_congr_left fun v hv => (colOf_eq (hf v hv)).1
  unfold readRockstarVals
  rw [hcols]
  refine Res.bind_ok (hg _ ?_) ?_
  · intro i hi
    rcases List.mem_cons.mp hi with rfl | hi
    · norm_num
    · obtain ⟨v, hv, rfl⟩ := List.mem_map.mp hi
      exact (colOf_eq (hf v hv)).2
  rw [List.map_cons, List.map_map]
  refine Res.bind_ok (a := tbl.getD 1 []) rfl ?_
  dsimp only
  have hloop := convert_loop c flags (tbl.getD 1 []) (flags.map ((fun i => tbl.getD i []) ∘ wantedColumn)) (by simp)
  rw [List.length_map, hloop]
  refine Res.bind_ok (a := _) rfl ?_
  have hz : List.zipWith (fun v (col : List ℝ) => col.map (wantedValue c v)) flags
      (flags.map ((fun i => tbl.getD i []) ∘ wantedColumn)) =
      flags.map fun v => (tbl.getD (wantedColumn v) []).map (wantedValue c v) := by
    clear hloop hcols hf
    induction flags with
    | nil => rfl
    | cons a l ih => rw [List.map_cons, List.zipWith_cons_cons, ih, List.map_cons]; rfl
  rw [hz]
  by_cases h0 : flags = []
  · subst h0
    rfl
  · rw [if_neg (by
      rw [List.length_cons, List.length_map]
      have := List.length_pos_iff.mpr h0
      omega)]
    have : sliceFrom ((tbl.getD 1 []) :: flags.map fun v => (tbl.getD (wantedColumn v) []).map (wantedValue c v)) 1 =
        some (flags.map fun v => (tbl.getD (wantedColumn v) []).map (wantedValue c v)) := by
      unfold sliceFrom
      rw [if_pos ⟨by norm_num, by rw [List.length_cons]; push_cast; omega⟩]
      rfl
    rw [this]
    rfl

/-- C101: reading values by flags from a text catalogue gives the identities and, for each flag in order, the column it names:
the radii are those of their definitions, scale radii are in Mpc, everything else is as in the file. -/
theorem C101_text (tbl : List (List ℝ)) (hw : 62 ≤ tbl.length) (c : CosmologyHeader) (flags : List ℕ)
    (hf : ∀ v ∈ flags, IsFlag v) :
    readRockstarVals (readTable tbl) c (flags.map fun (i : ℕ) => (i : ℤ)) =
      .ok ((tbl.getD 1 []).map truncReal, flags.map fun v => (tbl.getD (wantedColumn v) []).map (wantedValue c v)) :=
  readVals_ok (readTable tbl) tbl c flags hf fun idxs hi => readTable_ok tbl idxs fun i h => by have := hi i h; omega

/-- The binary getter, with bit patterns turned into numbers. -/
noncomputable def binaryGetter (val : Word 8 → ℝ) (file : List Byte) (idxs : List ℤ) : Res (List (List ℝ)) :=
  (binaryColGetter file idxs).bind fun cols => .ok (cols.map fun col => col.map val)

/-- C101: the binary reader on the converted catalogue gives the same as the text reader on the original. -/
theorem C101_binary (val : Word 8 → ℝ) (tbl : List (List (Word 8))) (n : ℕ) (ht : IsTable tbl n) (hn : n < 2 ^ 63)
    (hw : 62 ≤ tbl.length) (c : CosmologyHeader) (flags : List ℕ) (hf : ∀ v ∈ flags, IsFlag v) :
    ∃ file, rockstarConvert tbl = .ok file ∧
      readRockstarVals (binaryGetter val file) c (flags.map fun (i : ℕ) => (i : ℤ)) =
        readRockstarVals (readTable (tbl.map fun col => col.map val)) c (flags.map fun (i : ℕ) => (i : ℤ)) := by
  have h62 : ∀ i ∈ List.range 62, i < tbl.length := fun i hi => by rw [List.mem_range] at hi; omega
  refine ⟨_, convert_ok ht hw, ?_⟩
  rw [C101_text _ (by rw [List.length_map]; exact hw) c flags hf]
  refine readVals_ok _ (tbl.map fun col => col.map val) c flags hf fun idxs hi => ?_
  unfold binaryGetter
  rw [getter_ok (isTable_map ht h62) hn idxs fun i h => by have := hi i h; simp; omega]
  show Res.ok _ = Res.ok _
  rw [List.map_map]
  congr 1
  refine List.map_congr_left fun i h => ?_
  have hi' := hi i h
  have hit : i < tbl.length := by omega
  simp only [Function.comp]
  rw [List.getD_eq_getElem?_getD, List.getElem?_map, List.getElem?_range hi', List.getD_eq_getElem?_getD, List.getElem?_map,
    List.getElem?_eq_getElem hit]
  simp [List.getD_eq_getElem?_getD, hit]

/-- C101: the radii obtained by flag are those of `ReadRockstar` (before sorting) for the four definitions with a mass column. -/
theorem C101_radii (tbl : List (List ℝ)) (n : ℕ) (ht : IsTable tbl n) (hw : 62 ≤ tbl.length) (c : CosmologyHeader) :
    readRockstarVals (readTable tbl) c [64, 65, 66, 67] = .ok ((tbl.getD 1 []).map truncReal,
      [(List.range n).map (rowRadius r200m c tbl), (List.range n).map (rowRadius r200c c tbl),
       (List.range n).map (rowRadius r500c c tbl), (List.range n).map (rowRadius r2500c c tbl)]) := by
  have := C101_text tbl hw c [64, 65, 66, 67] (by intro v hv; simp at hv; unfold IsFlag; omega)
  have e : ([64, 65, 66, 67] : List ℕ).map (fun (i : ℕ) => (i : ℤ)) = [64, 65, 66, 67] := rfl
  rw [e] at this
  rw [this]
  show Res.ok (_, [(tbl.getD 36 []).map _, (tbl.getD 37 []).map _, (tbl.getD 38 []).map _, (tbl.getD 39 []).map _]) = _
  rw [col_eq 0 ht (c := 36) (by omega), col_eq 0 ht (c := 37) (by omega), col_eq 0 ht (c := 38) (by omega),
    col_eq 0 ht (c := 39) (by omega), List.map_map, List.map_map, List.map_map, List.map_map]
  rfl

example := C101_text exampleTable (by simp [exampleTable]) exampleCosmo [67, 11, 17] (by
  intro v hv; simp at hv; unfold IsFlag; omega)
example := C101_binary (fun w => (w.toNat : ℝ)) exampleWords 2 (by
    intro col hc
    rw [(List.mem_replicate.mp hc).2]
    rfl) (by norm_num) (by simp [exampleWords]) exampleCosmo [67, 11, 17] (by
  intro v hv; simp at hv; unfold IsFlag; omega)
example := C101_radii exampleTable 2 exampleTable_is (by simp [exampleTable]) exampleCosmo

end Verif.Halo
