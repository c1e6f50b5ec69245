import Verif.Scripts.HaloModel
import Verif.Halo.Catalog

/-!
# C115: the files for rendering a halo
-/

set_option autoImplicit false

namespace Verif.Scripts

open Verif.Go Verif.Io Verif.Halo

/-- The halos of given columns, in a given order. -/
noncomputable def colsAt (I : ℕ → ℤ) (X Y Z M R P : ℕ → ℝ) (p : List ℕ) : Halos :=
  ⟨p.map I, p.map X, p.map Y, p.map Z, p.map M, p.map R, p.map P⟩

theorem cols_run (I : ℕ → ℤ) (X Y Z M R P : ℕ → ℝ) (p : List ℕ) (swaps : List (ℤ × ℤ)) (h : InRange p.length swaps) :
    ∃ q : List ℕ, q.Perm p ∧ (colsAt I X Y Z M R P p).run swaps = some (colsAt I X Y Z M R P q) := by
  induction swaps generalizing p with
  | nil => exact ⟨p, List.Perm.refl _, rfl⟩
  | cons s swaps ih =>
    obtain ⟨⟨i0, i1⟩, j0, j1⟩ := h s List.mem_cons_self
    have hp := exchange_perm p i0 i1 j0 j1
    obtain ⟨q, hq, e⟩ := ih _ (by
      rw [hp.length_eq]
      exact fun t ht => h t (List.mem_cons_of_mem _ ht))
    refine ⟨q, hq.trans hp, ?_⟩
    unfold Halos.run at e ⊢
    rw [List.foldlM_cons]
    refine bind_of (a := colsAt I X Y Z M R P _) ?_ e
    unfold Halos.swap colsAt
    exact bind_of (exchange_map I p i0 i1 j0 j1) (bind_of (exchange_map R p i0 i1 j0 j1)
      (bind_of (exchange_map M p i0 i1 j0 j1) (bind_of (exchange_map P p i0 i1 j0 j1)
      (bind_of (exchange_map X p i0 i1 j0 j1) (bind_of (exchange_map Y p i0 i1 j0 j1)
      (bind_of (exchange_map Z p i0 i1 j0 j1) rfl))))))

/-- The column with the masses of a definition, or with the radii for the virial radius. -/
def dataColumn (r : Radius) : ℕ := if r = 0 then 11 else if r = 1 then 37 else if r = 2 then 36 else if r = 3 then 38 else 39

/-- The radius that the program puts into the files: always the R200m radius of the mass, except for the virial radius. -/
noncomputable def printedRadius (r : Radius) (c : CosmologyHeader) (tbl : List (List ℝ)) (i : ℕ) : ℝ :=
  if r = 0 then entry 0 tbl 11 i / 1000 else radiusOf r200m c (entry 0 tbl (dataColumn r) i)

theorem readHalos_unsorted (swaps : List (ℤ × ℤ)) (tbl : List (List ℝ)) (n : ℕ) (r : Radius) (c : CosmologyHeader)
    (hr : Named r) (ht : IsTable tbl n) (hw : 40 ≤ tbl.length) :
    readHalos swaps tbl r c = Res.ofOption ((colsAt (fun i => truncReal (entry 0 tbl 1 i)) (entry 0 tbl 17)
      (entry 0 tbl 18) (entry 0 tbl 19) (entry 0 tbl 36) (rowRadius r200m c tbl) (printedRadius r c tbl)
      (List.range n)).run swaps) := by
  have hlen : ∀ k : ℕ, ((List.replicate k (0 : ℝ)).drop k) = [] := fun k => by simp
  have hrad : ∀ col < 40, radiusInto rType c (tbl.getD col []) (List.replicate (tbl.getD col []).length 0) =
      some ((List.range n).map fun i => radiusOf r200m c (entry 0 tbl col i)) := by
    intro col hcol
    rw [radiusInto_eq _ _ _ _ (by simp), hlen, List.append_nil, col_eq 0 ht (c := col) (by omega), List.map_map]
    rfl
  have key : rockstarColumn r = some (dataColumn r : ℤ) ∧ dataColumn r < 40 ∧ ∃ isMass, rockstarMass r = some isMass ∧
      (if isMass = true then radiusInto rType c (tbl.getD (dataColumn r) [])
        (List.replicate (tbl.getD (dataColumn r) []).length 0)
        else some ((tbl.getD (dataColumn r) []).map (· / 1000))) = some ((List.range n).map (printedRadius r c tbl)) := by
    rcases named_cases hr with rfl | rfl | rfl | rfl | rfl
    · refine ⟨rfl, by decide, false, rfl, ?_⟩
      rw [if_neg (by simp), show dataColumn 0 = 11 from rfl, col_eq 0 ht (c := 11) (by omega), List.map_map]
      rfl
    · exact ⟨rfl, by decide, true, rfl, by rw [if_pos rfl, hrad _ (by decide)]; rfl⟩
    · exact ⟨rfl, by decide, true, rfl, by rw [if_pos rfl, hrad _ (by decide)]; rfl⟩
    · exact ⟨rfl, by decide, true, rfl, by rw [if_pos rfl, hrad _ (by decide)]; rfl⟩
    · exact ⟨rfl, by decide, true, rfl, by rw [if_pos rfl, hrad _ (by decide)]; rfl⟩
  obtain ⟨e1, hcol, isMass, e2, e3⟩ := key
  have hcols := readTable_ok tbl [1, 17, 18, 19, 36, dataColumn r] (by
    intro i hi
    simp only [List.mem_cons, List.not_mem_nil, or_false] at hi
    omega)
  unfold readHalos
  refine Res.bind_ok (a := (36 : ℤ)) rfl (Res.bind_ok (a := (dataColumn r : ℤ)) (by rw [e1]; rfl) (Res.bind_ok hcols ?_))
  refine Res.bind_ok (a := tbl.getD 1 []) rfl (Res.bind_ok (a := tbl.getD 17 []) rfl (Res.bind_ok (a := tbl.getD 18 []) rfl
    (Res.bind_ok (a := tbl.getD 19 []) rfl (Res.bind_ok (a := tbl.getD 36 []) rfl
    (Res.bind_ok (by rw [hrad 36 (by decide)]; rfl) (Res.bind_ok (a := isMass) (by rw [e2]; rfl)
    (Res.bind_ok (a := tbl.getD (dataColumn r) []) rfl (Res.bind_ok (by rw [e3]; rfl) ?_))))))))
  congr 2
  unfold colsAt
  rw [col_eq 0 ht (c := 1) (by omega), col_eq 0 ht (c := 17) (by omega), col_eq 0 ht (c := 18) (by omega),
    col_eq 0 ht (c := 19) (by omega), col_eq 0 ht (c := 36) (by omega), List.map_map]
  rfl

theorem findTarget_spec (d target : ℤ) (ids : List ℤ) (j : ℤ) :
    (target ∉ ids → findTarget d target j ids = d) ∧
    (target ∈ ids → ∃ k : ℕ, findTarget d target j ids = j + k ∧ ids[k]? = some target ∧
      ∀ i < k, ids[i]? ≠ some target) := by
  induction ids generalizing j with
  | nil => exact ⟨fun _ => rfl, fun h => by simp at h⟩
  | cons a ids ih =>
    unfold findTarget
    split_ifs with h
    · refine ⟨fun hn => absurd (by simp [h]) hn, fun _ => ⟨0, by simp, by simp [h], fun i hi => by omega⟩⟩
    · obtain ⟨h1, h2⟩ := ih (j + 1)
      constructor
      · intro hn
        exact h1 fun hm => hn (by simp [hm])
      · intro hm
        rcases List.mem_cons.1 hm with rfl | hm
        · exact absurd rfl h
        obtain ⟨k, e1, e2, e3⟩ := h2 hm
        refine ⟨k + 1, by rw [e1]; push_cast; ring, by simpa using e2, ?_⟩
        intro i hi
        cases i with
        | zero => simpa using h
        | succ i => simpa using e3 i (by omega)

/-- The line of the subhalo file for rank `k`, when the row of rank `k` in the table is `p[k]`. -/
noncomputable def wantedLine (r : Radius) (c : CosmologyHeader) (tbl : List (List ℝ)) (p : List ℕ) (k : ℕ) : ℤ × ℝ × ℝ × ℝ × ℝ :=
  (k, entry 0 tbl 17 (p.getD k 0), entry 0 tbl 18 (p.getD k 0), entry 0 tbl 19 (p.getD k 0), rowRadius r c tbl (p.getD k 0))

theorem haloLine_at (I : ℕ → ℤ) (X Y Z M R P : ℕ → ℝ) (p : List ℕ) (k : ℕ) (hk : k < p.length) :
    haloLine (colsAt I X Y Z M R P p) k =
      some ((k : ℤ), X (p.getD k 0), Y (p.getD k 0), Z (p.getD k 0), P (p.getD k 0)) := by
  have h : ∀ f : ℕ → ℝ, rd (p.map f) (k : ℤ) = some (f (p.getD k 0)) := by
    intro f
    rw [rd_natCast, List.getElem?_map, List.getD_eq_getElem?_getD, List.getElem?_eq_getElem hk]
    rfl
  unfold haloLine colsAt
  exact bind_of (h X) (bind_of (h Y) (bind_of (h Z) (bind_of (h P) rfl)))

/-- C115: for a wanted identity that is in the catalogue, and for the virial radius or R200m, the files are right whatever
exchanges the sort makes: the first line of the subhalo file and the ball file belong to the row of the catalogue with this
identity, the other lines to the rows at the ranks that the search for subhalos gave, each with position and radius of the
same row; the ball has three times the radius. If the sort keeps its contract, ranks are in order of decreasing R200m.
Missing: the other definitions of the radius and identities that are not in the catalogue. -/
theorem C115_files_partial (swaps : List (ℤ × ℤ)) (tbl : List (List ℝ)) (n : ℕ) (r : Radius) (c : CosmologyHeader)
    (hr : r = rVirial ∨ r = r200m) (ht : IsTable tbl n) (hw : 40 ≤ tbl.length) (hs : InRange n swaps) (target : ℤ)
    (hid : ∃ i < n, truncReal (entry 0 tbl 1 i) = target) (subs : List ℕ) (hsub : ∀ k ∈ subs, k < n) :
    ∃ (hs : Halos) (p : List ℕ) (ih : ℕ), readHalos swaps tbl r c = .ok hs ∧ p.Perm (List.range n) ∧
      findTargets [target] hs.ids = [(ih : ℤ)] ∧ ih < n ∧ truncReal (entry 0 tbl 1 (p.getD ih 0)) = target ∧
      shFile hs ih (subs.map fun (k : ℕ) => (k : ℤ)) = some (wantedLine r c tbl p ih :: subs.map (wantedLine r c tbl p)) ∧
      ballFile hs ih = some (entry 0 tbl 17 (p.getD ih 0), entry 0 tbl 18 (p.getD ih 0), entry 0 tbl 19 (p.getD ih 0),
        rowRadius r c tbl (p.getD ih 0) * 3) ∧
      hs.xs = p.map (entry 0 tbl 17) ∧ hs.ys = p.map (entry 0 tbl 18) ∧ hs.zs = p.map (entry 0 tbl 19) ∧
      hs.r200ms = p.map (rowRadius r200m c tbl) ∧
      (SortedBy hs.lessReversed n → hs.r200ms.Pairwise (· ≥ ·)) := by
  have hnamed : Named r := by rcases hr with rfl | rfl <;> constructor <;> decide
  have hprint : printedRadius r c tbl = rowRadius r c tbl := by
    rcases hr with rfl | rfl <;> rfl
  obtain ⟨p, hp, e⟩ := cols_run (fun i => truncReal (entry 0 tbl 1 i)) (entry 0 tbl 17)
      (entry 0 tbl 18) (entry 0 tbl 19) (entry 0 tbl 36) (rowRadius r200m c tbl) (printedRadius r c tbl) (List.range n) swaps
      (by simpa using hs)
  have hpl : p.length = n := by rw [hp.length_eq, List.length_range]
  obtain ⟨i, hi, hit⟩ := hid
  have hmem : target ∈ p.map (fun i => truncReal (entry 0 tbl 1 i)) := by
    rw [List.mem_map]
    exact ⟨i, hp.mem_iff.mpr (List.mem_range.mpr hi), hit⟩
  obtain ⟨ih, e1, e2, e3⟩ := (findTarget_spec 0 target (p.map (fun i => truncReal (entry 0 tbl 1 i))) 0).2 hmem
  have hih : ih < p.length := by
    have := (List.getElem?_eq_some_iff.mp e2).1
    simpa using this
  have hline : ∀ k < n, haloLine (colsAt (fun i => truncReal (entry 0 tbl 1 i)) (entry 0 tbl 17)
      (entry 0 tbl 18) (entry 0 tbl 19) (entry 0 tbl 36) (rowRadius r200m c tbl) (printedRadius r c tbl) p) k =
      some (wantedLine r c tbl p k) := by
    intro k hk
    rw [haloLine_at _ _ _ _ _ _ _ _ _ (by omega), hprint]
    rfl
  refine ⟨colsAt (fun i => truncReal (entry 0 tbl 1 i)) (entry 0 tbl 17) (entry 0 tbl 18) (entry 0 tbl 19) (entry 0 tbl 36)
    (rowRadius r200m c tbl) (printedRadius r c tbl) p, p, ih, ?_, hp, ?_, by omega, ?_, ?_, ?_, rfl, rfl, rfl, rfl, ?_⟩
  · rw [readHalos_unsorted swaps tbl n r c hnamed ht hw, e]
    rfl
  · show [findTarget 0 target 0 (p.map _)] = _
    rw [e1, zero_add]
  · rw [List.getElem?_map] at e2
    rw [List.getD_eq_getElem?_getD, List.getElem?_eq_getElem hih]
    rw [List.getElem?_eq_getElem hih] at e2
    simpa using e2
  · unfold shFile
    refine bind_of (hline ih (by omega)) (bind_of (a := subs.map (wantedLine r c tbl p)) ?_ rfl)
    clear e1 e2 e3
    induction subs with
    | nil => rfl
    | cons k subs ihs =>
      rw [List.map_cons, List.mapM_cons]
      exact bind_of (hline k (hsub k (by simp))) (bind_of (ihs fun k' hk' => hsub k' (by simp [hk'])) rfl)
  · exact bind_of (hline ih (by omega)) rfl
  · intro hso
    apply chain_pairwise
    · intro a b c h1 h2
      exact le_trans h2 h1
    · intro k hk
      rw [show (colsAt _ _ _ _ _ _ _ p).r200ms = p.map (rowRadius r200m c tbl) from rfl, List.length_map] at hk
      have := hso k (by omega)
      unfold Halos.lessReversed Halos.less at this
      rw [show (colsAt _ _ _ _ _ _ _ p).r200ms = p.map (rowRadius r200m c tbl) from rfl] at this
      rw [show ((k : ℤ) + 1) = ((k + 1 : ℕ) : ℤ) by push_cast; rfl, rd_getElem (i := k) (by simp; omega)] at this
      have h2 := rd_getElem (xs := p.map (rowRadius r200m c tbl)) (i := k + 1) (by simp; omega)
      rw [h2] at this
      simp only [Option.bind_eq_bind, Option.bind_some, Option.some.injEq, eq_iff_iff, iff_false, not_lt] at this
      exact this

example := C115_files_partial [(0, 1)] exampleTable 2 r200m exampleCosmo (.inr rfl) exampleTable_is
  (by simp [exampleTable]) (by intro p hp; simp at hp; subst hp; norm_num) 2
  ⟨1, by norm_num, by norm_num [exampleTable, entry, truncReal]⟩ [0, 1] (by simp)

/-- C115 fails for R500c and R2500c in a flat universe: the radius of every halo with a mass is too large, because the program
computes the R200m radius of its mass. -/
theorem C115_radius_counterexample (tbl : List (List ℝ)) (n : ℕ) (r : Radius) (c : CosmologyHeader)
    (hr : r = r500c ∨ r = r2500c) (hc : Good c) (flat : c.omegaM + c.omegaL = 1) (ht : IsTable tbl n) (hw : 40 ≤ tbl.length)
    (i : ℕ) (hi : i < n) (hm : 0 < rowMass r c tbl i) :
    ∃ hs radius, readHalos [] tbl r c = .ok hs ∧ hs.ids[i]? = some (truncReal (entry 0 tbl 1 i)) ∧
      hs.rPrints[i]? = some radius ∧ rowRadius r c tbl i < radius := by
  have hnamed : Named r := by rcases hr with rfl | rfl <;> constructor <;> decide
  have hi' : (List.range n)[i]? = some i := by simp [hi]
  refine ⟨_, printedRadius r c tbl i, readHalos_unsorted [] tbl n r c hnamed ht hw, ?_, ?_, ?_⟩
  · show ((List.range n).map _)[i]? = _
    rw [List.getElem?_map, hi']; rfl
  · show ((List.range n).map _)[i]? = _
    rw [List.getElem?_map, hi']; rfl
  · obtain ⟨rv, r2, r5, r25, rm, -, -, a5, a25, am, l1, l2, -, l4⟩ := C76_order c hc _ hm
    have l4 := l4 flat
    rw [radiusInto_eq _ c _ _ (by simp)] at a5 a25 am
    have a5 : radiusOf r500c c (rowMass r c tbl i) = r5 := by simpa using a5
    have a25 : radiusOf r2500c c (rowMass r c tbl i) = r25 := by simpa using a25
    have am : radiusOf r200m c (rowMass r c tbl i) = rm := by simpa using am
    rcases hr with rfl | rfl
    · show radiusOf r500c c (rowMass r500c c tbl i) < radiusOf r200m c (rowMass r500c c tbl i)
      rw [a5, am]; linarith
    · show radiusOf r2500c c (rowMass r2500c c tbl i) < radiusOf r200m c (rowMass r2500c c tbl i)
      rw [a25, am]; linarith

example := C115_radius_counterexample exampleTable 2 r500c exampleCosmo (.inl rfl) exampleCosmo_good
  (by norm_num [exampleCosmo]) exampleTable_is (by simp [exampleTable]) 1 (by norm_num)
  (by norm_num [rowMass, exampleTable, entry, r500c])

/-- C115 fails for an identity that is not in the catalogue: the program goes on with the largest halo. -/
theorem C115_missing_counterexample (target : ℤ) (ids : List ℤ) (h : target ∉ ids) : findTargets [target] ids = [0] := by
  show [findTarget 0 target 0 ids] = [0]
  rw [(findTarget_spec 0 target ids 0).1 h]

example : (169607412 : ℤ) ∉ [1, 2, 3] := by decide

/-- C115: the number of particles per tetrahedron is the wanted number, rounded down, but at least 20. -/
theorem C115_particles (L l : ℚ) (pixels : ℤ) (hL : 0 ≤ L) (hl : 0 < l) (hp : 0 ≤ pixels) :
    20 ≤ particles L l pixels ∧
    (20 ≤ 1000 * (L / (3 * l)) ^ 3 * ((pixels : ℚ) / 500) ^ 3 →
      (particles L l pixels : ℚ) ≤ 1000 * (L / (3 * l)) ^ 3 * ((pixels : ℚ) / 500) ^ 3 ∧
      1000 * (L / (3 * l)) ^ 3 * ((pixels : ℚ) / 500) ^ 3 < particles L l pixels + 1) := by
  have hpq : (0 : ℚ) ≤ pixels := by exact_mod_cast hp
  have h0 : 0 ≤ 1000 * (L / (3 * l)) ^ 3 * ((pixels : ℚ) / 500) ^ 3 := by positivity
  unfold particles
  dsimp only
  rw [trunc_of_nonneg h0]
  generalize 1000 * (L / (3 * l)) ^ 3 * ((pixels : ℚ) / 500) ^ 3 = x
  refine ⟨by split_ifs <;> omega, fun h => ?_⟩
  have : (20 : ℤ) ≤ ⌊x⌋ := Int.le_floor.mpr (by exact_mod_cast h)
  rw [if_neg (by omega)]
  exact ⟨Int.floor_le x, Int.lt_floor_add_one x⟩

example : particles 125 (3 / 2) 400 = 10973936 ∧ particles 125 100 400 = 37 ∧ particles 125 1000 400 = 20 := by decide +kernel

end Verif.Scripts
