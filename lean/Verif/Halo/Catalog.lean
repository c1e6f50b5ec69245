import Verif.Halo.CatalogModel
import Verif.Halo.Radius
import Verif.Io.Bytes
import Mathlib.Tactic.IntervalCases

/-!
# C77, C78, C100, C101: halo catalogues
-/

set_option autoImplicit false

namespace Verif.Halo

open Verif.Go Verif.Io

/-! ## Sorting parallel columns -/

theorem exchange_map {α : Type} (f : ℕ → α) (p : List ℕ) {i j : ℤ} (i0 : 0 ≤ i) (i1 : i < p.length) (j0 : 0 ≤ j)
    (j1 : j < p.length) :
    exchange (p.map f) i j = some (((p.set i.toNat (p[j.toNat]'(by omega))).set j.toNat (p[i.toNat]'(by omega))).map f) := by
  obtain ⟨a, rfl⟩ := Int.eq_ofNat_of_zero_le i0
  obtain ⟨b, rfl⟩ := Int.eq_ofNat_of_zero_le j0
  have ha : a < p.length := by omega
  have hb : b < p.length := by omega
  unfold exchange
  simp only [Int.toNat_natCast]
  refine bind_of (rd_getElem (i := b) (by simpa using hb)) (bind_of (rd_getElem (i := a) (by simpa using ha))
    (bind_of (wr_natCast (by simpa using ha)) ?_))
  rw [wr_natCast (by simpa using hb), List.map_set, List.map_set]
  simp

theorem exchange_perm (p : List ℕ) {i j : ℤ} (i0 : 0 ≤ i) (i1 : i < p.length) (_j0 : 0 ≤ j) (j1 : j < p.length) :
    ((p.set i.toNat (p[j.toNat]'(by omega))).set j.toNat (p[i.toNat]'(by omega))).Perm p :=
  List.set_set_perm _ _

/-- Indices inside the data. -/
def InRange (n : ℕ) (swaps : List (ℤ × ℤ)) : Prop := ∀ p ∈ swaps, (0 ≤ p.1 ∧ p.1 < n) ∧ (0 ≤ p.2 ∧ p.2 < n)

/-- The halos of given columns, in a given order. -/
noncomputable def halosAt (I : ℕ → ℤ) (X Y Z M R : ℕ → ℝ) (p : List ℕ) : Halos :=
  ⟨p.map I, p.map X, p.map Y, p.map Z, p.map M, p.map R⟩

theorem halos_run (I : ℕ → ℤ) (X Y Z M R : ℕ → ℝ) (p : List ℕ) (swaps : List (ℤ × ℤ)) (h : InRange p.length swaps) :
    ∃ q : List ℕ, q.Perm p ∧ (halosAt I X Y Z M R p).run swaps = some (halosAt I X Y Z M R q) := by
  induction swaps generalizing p with
  | nil => exact ⟨p, List.Perm.refl _, rfl⟩
  | cons s swaps ih =>
    obtain ⟨⟨i0, i1⟩, j0, j1⟩ := h s List.mem_cons_self
    have hp := exchange_perm p i0 i1 j0 j1
    obtain ⟨q, hq, e⟩ := ih _ (by
      rw [hp.length_eq]
      exact fun t ht => h t (List.mem_cons_of_mem _ ht))
    refine ⟨q, hq.trans hp, ?_⟩
    unfold Halos.run at e ⊢
    rw [List.foldlM_cons]
    refine bind_of (a := halosAt I X Y Z M R _) ?_ e
    unfold Halos.swap halosAt
    exact bind_of (exchange_map R p i0 i1 j0 j1) (bind_of (exchange_map M p i0 i1 j0 j1)
      (bind_of (exchange_map X p i0 i1 j0 j1) (bind_of (exchange_map Y p i0 i1 j0 j1)
      (bind_of (exchange_map Z p i0 i1 j0 j1) (bind_of (exchange_map I p i0 i1 j0 j1) rfl)))))

/-- What `sort.Sort` guarantees at the end. -/
def SortedBy (less : ℤ → ℤ → Option Prop) (n : ℕ) : Prop := ∀ k : ℕ, k + 1 < n → less (k + 1) k = some False

theorem chain_pairwise {α : Type} (R : α → α → Prop) (ht : ∀ a b c, R a b → R b c → R a c) (l : List α)
    (h : ∀ k, (hk : k + 1 < l.length) → R l[k] l[k + 1]) : l.Pairwise R := by
  rw [List.pairwise_iff_getElem]
  intro i j hi hj hij
  induction j, hij using Nat.le_induction with
  | base => exact h i hj
  | succ j hij ih => exact ht _ _ _ (ih (by omega)) (h j hj)

theorem eq_range_map {α : Type} (d : α) (l : List α) : l = (List.range l.length).map fun i => l.getD i d := by
  apply List.ext_getElem
  · simp
  · intro i h1 h2
    simp [List.getD_eq_getElem?_getD, h1]

/-! ## Columns of a table -/

/-- A table: all columns have the same length. -/
def IsTable {α : Type} (tbl : List (List α)) (n : ℕ) : Prop := ∀ col ∈ tbl, col.length = n

/-- The entry of a table. -/
def entry {α : Type} (d : α) (tbl : List (List α)) (c i : ℕ) : α := (tbl.getD c []).getD i d

theorem readTable_ok {α : Type} (tbl : List (List α)) (idxs : List ℕ) (h : ∀ i ∈ idxs, i < tbl.length) :
    readTable tbl (idxs.map fun (i : ℕ) => (i : ℤ)) = .ok (idxs.map fun i => tbl.getD i []) := by
  have : (idxs.map fun (i : ℕ) => (i : ℤ)).mapM (rd tbl) = some (idxs.map fun i => tbl.getD i []) := by
    induction idxs with
    | nil => rfl
    | cons a idxs ih =>
      rw [List.map_cons, List.mapM_cons]
      have ha := h a List.mem_cons_self
      refine bind_of (a := tbl.getD a []) ?_ (bind_of (ih fun i hi => h i (List.mem_cons_of_mem _ hi)) rfl)
      rw [rd_getElem ha]
      simp [List.getD_eq_getElem?_getD, ha]
  unfold readTable
  rw [this]

theorem col_length {α : Type} {tbl : List (List α)} {n c : ℕ} (ht : IsTable tbl n) (hc : c < tbl.length) :
    (tbl.getD c []).length = n := by
  rw [List.getD_eq_getElem?_getD, List.getElem?_eq_getElem hc, Option.getD_some]
  exact ht _ (List.getElem_mem hc)

theorem col_eq {α : Type} (d : α) {tbl : List (List α)} {n c : ℕ} (ht : IsTable tbl n) (hc : c < tbl.length) :
    tbl.getD c [] = (List.range n).map (entry d tbl c) := by
  conv_lhs => rw [eq_range_map d (tbl.getD c [])]
  rw [col_length ht hc]
  rfl

/-! ## C77 -/

/-- The radius and mass of a row of a catalogue: from the mass column of the definition, or for the virial radius from the
radius column, which is in kpc. -/
noncomputable def rowRadius (r : Radius) (c : CosmologyHeader) (tbl : List (List ℝ)) (i : ℕ) : ℝ :=
  if r = 0 then entry 0 tbl 11 i / 1000
  else radiusOf r c (entry 0 tbl (if r = 1 then 37 else if r = 2 then 36 else if r = 3 then 38 else 39) i)

/-- See `rowRadius`. -/
noncomputable def rowMass (r : Radius) (c : CosmologyHeader) (tbl : List (List ℝ)) (i : ℕ) : ℝ :=
  if r = 0 then massOf r c (entry 0 tbl 11 i / 1000)
  else entry 0 tbl (if r = 1 then 37 else if r = 2 then 36 else if r = 3 then 38 else 39) i

/-- The unsorted catalogue. -/
theorem readRockstar_unsorted (swaps : List (ℤ × ℤ)) (tbl : List (List ℝ)) (n : ℕ) (r : Radius) (c : CosmologyHeader)
    (hr : Named r) (ht : IsTable tbl n) (hw : 40 ≤ tbl.length) :
    readRockstar swaps tbl r c = Res.ofOption ((halosAt (fun i => truncReal (entry 0 tbl 1 i)) (entry 0 tbl 17)
      (entry 0 tbl 18) (entry 0 tbl 19) (rowMass r c tbl) (rowRadius r c tbl) (List.range n)).run swaps) := by
  have hlen : ∀ k : ℕ, ((List.replicate k (0 : ℝ)).drop k) = [] := fun k => by simp
  have key : ∀ (col : ℕ), col < 40 → rockstarColumn r = some (col : ℤ) →
      (∀ X : List ℝ, X = (List.range n).map (entry 0 tbl col) → ∃ isMass, rockstarMass r = some isMass ∧
        (if isMass = true then (do
            let rs ← radiusInto r c X (List.replicate X.length 0)
            some (X, rs))
          else (do
            let rs := X.map (· / 1000)
            let ms ← massInto r c rs (List.replicate rs.length 0)
            some (ms, rs)) : Option (List ℝ × List ℝ)) =
          some ((List.range n).map (rowMass r c tbl), (List.range n).map (rowRadius r c tbl))) →
      readRockstar swaps tbl r c = Res.ofOption ((halosAt (fun i => truncReal (entry 0 tbl 1 i)) (entry 0 tbl 17)
      (entry 0 tbl 18) (entry 0 tbl 19) (rowMass r c tbl) (rowRadius r c tbl) (List.range n)).run swaps) := by
    intro col hcol e1 hX
    obtain ⟨isMass, e2, e3⟩ := hX _ (col_eq 0 ht (c := col) (by omega))
    have hcols := readTable_ok tbl [1, 17, 18, 19, col] (by
      intro i hi
      simp only [List.mem_cons, List.not_mem_nil, or_false] at hi
      omega)
    unfold readRockstar
    refine Res.bind_ok (a := (col : ℤ)) (by rw [e1]; rfl) (Res.bind_ok hcols ?_)
    refine Res.bind_ok (a := tbl.getD 1 []) rfl (Res.bind_ok (a := tbl.getD 17 []) rfl (Res.bind_ok (a := tbl.getD 18 []) rfl
      (Res.bind_ok (a := tbl.getD 19 []) rfl (Res.bind_ok (a := isMass) (by rw [e2]; rfl)
      (Res.bind_ok (a := tbl.getD col []) rfl (Res.bind_ok (by rw [e3]; rfl) ?_))))))
    dsimp only
    congr 2
    unfold halosAt
    rw [col_eq 0 ht (c := 1) (by omega), col_eq 0 ht (c := 17) (by omega), col_eq 0 ht (c := 18) (by omega),
      col_eq 0 ht (c := 19) (by omega), List.map_map]
    rfl
  have hmass : ∀ col : ℕ, (∀ i, rowMass r c tbl i = entry 0 tbl col i) →
      (∀ i, rowRadius r c tbl i = radiusOf r c (entry 0 tbl col i)) → ∀ X : List ℝ, X = (List.range n).map (entry 0 tbl col) →
      (do
            let rs ← radiusInto r c X (List.replicate X.length 0)
            some (X, rs) : Option (List ℝ × List ℝ)) =
          some ((List.range n).map (rowMass r c tbl), (List.range n).map (rowRadius r c tbl)) := by
    rintro col h1 h2 X rfl
    refine bind_of (radiusInto_eq _ _ _ _ (by simp)) ?_
    rw [hlen, List.append_nil, List.map_map]
    congr 2
    · exact List.map_congr_left fun i _ => (h1 i).symm
    · exact List.map_congr_left fun i _ => (h2 i).symm
  rcases named_cases hr with rfl | rfl | rfl | rfl | rfl
  · refine key 11 (by norm_num) rfl ?_
    rintro X rfl
    refine ⟨false, rfl, ?_⟩
    rw [if_neg (by simp)]
    refine bind_of (massInto_eq _ _ _ _ (by simp)) ?_
    rw [hlen, List.append_nil]
    simp only [List.map_map]
    rfl
  · exact key 37 (by norm_num) rfl fun X h => ⟨true, rfl, hmass 37 (fun _ => rfl) (fun _ => rfl) X h⟩
  · exact key 36 (by norm_num) rfl fun X h => ⟨true, rfl, hmass 36 (fun _ => rfl) (fun _ => rfl) X h⟩
  · exact key 38 (by norm_num) rfl fun X h => ⟨true, rfl, hmass 38 (fun _ => rfl) (fun _ => rfl) X h⟩
  · exact key 39 (by norm_num) rfl fun X h => ⟨true, rfl, hmass 39 (fun _ => rfl) (fun _ => rfl) X h⟩

/-- C77: whatever exchanges the sort makes, every record of the result is a record of the file, each once, with identity,
position, mass and radius of the same row; and if the sort keeps its contract, the radii do not increase. -/
theorem C77_catalogue (swaps : List (ℤ × ℤ)) (tbl : List (List ℝ)) (n : ℕ) (r : Radius) (c : CosmologyHeader)
    (hr : Named r) (ht : IsTable tbl n) (hw : 40 ≤ tbl.length) (hs : InRange n swaps) :
    ∃ (hs : Halos) (p : List ℕ), readRockstar swaps tbl r c = .ok hs ∧ p.Perm (List.range n) ∧
      hs.rids = p.map (fun i => truncReal (entry 0 tbl 1 i)) ∧ hs.xs = p.map (entry 0 tbl 17) ∧
      hs.ys = p.map (entry 0 tbl 18) ∧ hs.zs = p.map (entry 0 tbl 19) ∧ hs.ms = p.map (rowMass r c tbl) ∧
      hs.rs = p.map (rowRadius r c tbl) ∧ (SortedBy hs.lessReversed n → hs.rs.Pairwise (· ≥ ·)) := by
  obtain ⟨p, hp, e⟩ := halos_run (fun i => truncReal (entry 0 tbl 1 i)) (entry 0 tbl 17)
      (entry 0 tbl 18) (entry 0 tbl 19) (rowMass r c tbl) (rowRadius r c tbl) (List.range n) swaps (by simpa using hs)
  refine ⟨halosAt (fun i => truncReal (entry 0 tbl 1 i)) (entry 0 tbl 17)
      (entry 0 tbl 18) (entry 0 tbl 19) (rowMass r c tbl) (rowRadius r c tbl) p, p, ?_, hp, rfl, rfl, rfl, rfl, rfl, rfl, ?_⟩
  · rw [readRockstar_unsorted swaps tbl n r c hr ht hw, e]
    rfl
  · intro hso
    have hpl : p.length = n := by rw [hp.length_eq, List.length_range]
    apply chain_pairwise
    · intro a b c h1 h2
      exact le_trans h2 h1
    · intro k hk
      rw [show (halosAt _ _ _ _ _ _ p).rs = p.map (rowRadius r c tbl) from rfl, List.length_map] at hk
      have := hso k (by omega)
      unfold Halos.lessReversed Halos.less at this
      rw [show (halosAt _ _ _ _ _ _ p).rs = p.map (rowRadius r c tbl) from rfl] at this
      rw [show ((k : ℤ) + 1) = ((k + 1 : ℕ) : ℤ) by push_cast; rfl, rd_getElem (i := k) (by simp; omega)] at this
      have h2 := rd_getElem (xs := p.map (rowRadius r c tbl)) (i := k + 1) (by simp; omega)
      rw [h2] at this
      simp only [Option.bind_eq_bind, Option.bind_some, Option.some.injEq, eq_iff_iff, iff_false, not_lt] at this
      exact this

/-- C77: the masses and radii of every record belong together. -/
theorem C77_mass_radius (swaps : List (ℤ × ℤ)) (tbl : List (List ℝ)) (n : ℕ) (r : Radius) (c : CosmologyHeader)
    (hr : Named r) (hc : Good c) (ht : IsTable tbl n) (hw : 40 ≤ tbl.length) (hs : InRange n swaps)
    (hpos : ∀ col ∈ tbl, ∀ x ∈ col, 0 ≤ x) :
    ∃ hs : Halos, readRockstar swaps tbl r c = .ok hs ∧ hs.ms.length = n ∧ hs.rs.length = n ∧
      radiusInPlace r c hs.ms = some hs.rs ∧ massInto r c hs.rs hs.rs = some hs.ms := by
  have hpe : ∀ col i, 0 ≤ entry 0 tbl col i := by
    intro col i
    unfold entry
    rw [List.getD_eq_getElem?_getD, List.getD_eq_getElem?_getD]
    rcases h : tbl[col]? with _ | l
    · simp
    · rcases h' : l[i]? with _ | x
      · simp [h']
      · simp only [Option.getD_some, h']
        exact hpos l (List.mem_of_getElem? h) x (List.mem_of_getElem? h')
  obtain ⟨hs, p, e, hp, -, -, -, -, em, er, -⟩ := C77_catalogue swaps tbl n r c hr ht hw hs
  have hpl : p.length = n := by rw [hp.length_eq, List.length_range]
  refine ⟨hs, e, by rw [em, List.length_map, hpl], by rw [er, List.length_map, hpl], ?_, ?_⟩
  · rw [radiusInPlace_eq, em, er, List.map_map]
    congr 1
    refine List.map_congr_left fun i _ => ?_
    simp only [Function.comp]
    unfold rowMass rowRadius
    split_ifs with h0
    · exact radius_mass hr hc (div_nonneg (hpe _ _) (by norm_num))
    all_goals rfl
  · rw [massInto_eq _ _ _ _ (le_refl _), List.drop_length, List.append_nil, em, er, List.map_map]
    congr 1
    refine List.map_congr_left fun i _ => ?_
    simp only [Function.comp]
    unfold rowMass rowRadius
    split_ifs with h0
    · rfl
    all_goals exact mass_radius hr hc (hpe _ _)

/-- A table of two halos, the larger one second. -/
def exampleTable : List (List ℝ) := List.replicate 62 [1, 2]

theorem exampleTable_is : IsTable exampleTable 2 := by
  intro col hc
  unfold exampleTable at hc
  rw [(List.mem_replicate.mp hc).2]
  rfl

/-- One exchange sorts it. -/
example : ∃ hs : Halos, readRockstar [(0, 1)] exampleTable rVirial exampleCosmo = .ok hs ∧ SortedBy hs.lessReversed 2 ∧
    hs.rids = [2, 1] := by
  rw [readRockstar_unsorted _ _ 2 rVirial _ (by constructor <;> decide) exampleTable_is (by simp [exampleTable])]
  refine ⟨_, rfl, ?_, ?_⟩
  · intro k hk
    have : k = 0 := by omega
    subst this
    have e : ∀ i, rowRadius rVirial exampleCosmo exampleTable i = entry 0 exampleTable 11 i / 1000 := fun i => rfl
    show some (rowRadius rVirial exampleCosmo exampleTable 1 < rowRadius rVirial exampleCosmo exampleTable 0) = some False
    rw [e, e]
    norm_num [exampleTable, entry]
  · show [truncReal 2, truncReal 1] = [2, 1]
    norm_num [truncReal]

example := C77_catalogue [(0, 1)] exampleTable 2 r200c exampleCosmo (by constructor <;> decide) exampleTable_is
  (by simp [exampleTable]) (by intro p hp; simp at hp; subst hp; norm_num)

example := C77_mass_radius [(0, 1)] exampleTable 2 r200c exampleCosmo (by constructor <;> decide) exampleCosmo_good
  exampleTable_is (by simp [exampleTable]) (by intro p hp; simp at hp; subst hp; norm_num) (by
    intro col hc x hx
    rw [(List.mem_replicate.mp hc).2] at hx
    simp at hx
    rcases hx with rfl | rfl <;> norm_num)

/-! ## C78: binary catalogues -/

theorem word_nat {n : ℕ} (h : n < 2 ^ 63) : (BitVec.ofInt (8 * 8) (n : ℤ)).toInt = n := by
  rw [BitVec.toInt_ofInt]
  norm_num [Int.bmod]
  rw [if_pos]
  · rw [Int.emod_eq_of_lt (by omega) (by norm_num; omega)]
  · rw [Int.emod_eq_of_lt (by omega) (by norm_num; omega)]
    omega

theorem flatMap_const_length {α β : Type} {f : α → List β} {m : ℕ} (l : List α) (h : ∀ a ∈ l, (f a).length = m) :
    (l.flatMap f).length = m * l.length := by
  induction l with
  | nil => simp
  | cons a l ih =>
    rw [List.flatMap_cons, List.length_append, h a List.mem_cons_self, ih fun b hb => h b (List.mem_cons_of_mem _ hb),
      List.length_cons]
    ring

/-- Part `c` of a concatenation of parts of equal length. -/
theorem flatMap_part {α β : Type} {f : α → List β} {m : ℕ} (l : List α) (h : ∀ a ∈ l, (f a).length = m) {c : ℕ}
    (hc : c < l.length) : ∃ tail, (l.flatMap f).drop (m * c) = f l[c] ++ tail := by
  refine ⟨(l.drop (c + 1)).flatMap f, ?_⟩
  have e : l = l.take c ++ l[c] :: l.drop (c + 1) := by rw [List.getElem_cons_drop, List.take_append_drop]
  conv_lhs => rw [e]
  rw [List.flatMap_append, List.flatMap_cons, drop_app]
  rw [flatMap_const_length (l.take c) (fun a ha => h a (List.mem_of_mem_take ha)), List.length_take]
  congr 1
  omega

theorem bytes_length (col : List (Word 8)) : (col.flatMap (encode .le 8)).length = 8 * col.length :=
  flatMap_length (fun w => encode_length .le 8 w) col

/-- A column that was written is read back. -/
theorem readColumn_ok {cols : List (List (Word 8))} {n c : ℕ} (ht : IsTable cols n) (hc : c < cols.length) (h62 : c ≤ 62) :
    readColumn (encodeCatalog n cols) n c = .ok cols[c] := by
  unfold readColumn
  have hcol : cols[c].length = n := ht _ (List.getElem_mem hc)
  rw [if_neg (by unfold valNum; omega), if_neg (by
    have : 0 ≤ (n : ℤ) * 8 * c := by positivity
    omega)]
  have hpos : (8 + (n : ℤ) * 8 * c).toNat = 8 + 8 * n * c := by
    rw [show (8 + (n : ℤ) * 8 * c) = ((8 + 8 * n * c : ℕ) : ℤ) by push_cast; ring, Int.toNat_natCast]
  obtain ⟨tail, htail⟩ := flatMap_part (f := fun col : List (Word 8) => col.flatMap (encode .le 8)) (m := 8 * n) cols
    (fun a ha => by rw [bytes_length, ht a ha]) hc
  obtain ⟨r', e, -⟩ := Rdr.readFull_ok (r := ⟨encodeCatalog n cols, (8 + (n : ℤ) * 8 * c).toNat⟩)
    (bytes := cols[c].flatMap (encode .le 8)) (tail := tail) (n := 8 * n) (by
      unfold Rdr.rest encodeCatalog
      dsimp only
      rw [hpos, ← List.drop_drop, drop_app (encode_length .le 8 _), htail]) (by rw [bytes_length, hcol])
  rw [Int.toNat_natCast]
  refine Res.bind_ok e ?_
  dsimp only
  congr 1
  rw [← hcol]
  exact ofMem_flatMap (fun w => encode_length .le 8 w) (fun w => decode_encode .le 8 w) _

theorem readColumns_ok {cols : List (List (Word 8))} {n : ℕ} (ht : IsTable cols n) (idxs : List ℕ)
    (h : ∀ i ∈ idxs, i < cols.length ∧ i ≤ 62) :
    readColumns (encodeCatalog n cols) n (idxs.map fun (i : ℕ) => (i : ℤ)) = .ok (idxs.map fun i => cols.getD i []) := by
  induction idxs with
  | nil => rfl
  | cons a idxs ih =>
    obtain ⟨h1, h2⟩ := h a List.mem_cons_self
    rw [List.map_cons, readColumns]
    refine Res.bind_ok (readColumn_ok ht h1 h2) (Res.bind_ok (ih fun i hi => h i (List.mem_cons_of_mem _ hi)) ?_)
    rw [List.map_cons, List.getD_eq_getElem?_getD, List.getElem?_eq_getElem h1]
    rfl

theorem header_ok {n : ℕ} (hn : n < 2 ^ 63) (cols : List (List (Word 8))) :
    ∃ r bs, (Rdr.mk (encodeCatalog n cols) 0).readFull 8 = .ok (bs, r) ∧ (decode .le 8 bs).toInt = n := by
  obtain ⟨r', e, -⟩ := Rdr.readFull_ok (r := ⟨encodeCatalog n cols, 0⟩) (bytes := encode .le 8 (BitVec.ofInt (8 * 8) (n : ℤ)))
    (tail := cols.flatMap fun col => col.flatMap (encode .le 8)) (n := 8) rfl (encode_length .le 8 _)
  exact ⟨r', _, e, by rw [decode_encode, word_nat hn]⟩

theorem getter_ok {cols : List (List (Word 8))} {n : ℕ} (ht : IsTable cols n) (hn : n < 2 ^ 63) (idxs : List ℕ)
    (h : ∀ i ∈ idxs, i < cols.length ∧ i ≤ 62) :
    binaryColGetter (encodeCatalog n cols) (idxs.map fun (i : ℕ) => (i : ℤ)) = .ok (idxs.map fun i => cols.getD i []) := by
  obtain ⟨r', bs, e, hn'⟩ := header_ok hn cols
  unfold binaryColGetter
  refine Res.bind_ok e ?_
  dsimp only
  rw [hn', if_neg (by omega)]
  exact readColumns_ok ht idxs h

theorem isTable_map {α : Type} {tbl : List (List α)} {n : ℕ} (ht : IsTable tbl n) {idxs : List ℕ}
    (h : ∀ i ∈ idxs, i < tbl.length) : IsTable (idxs.map fun i => tbl.getD i []) n := by
  intro col hc
  rw [List.mem_map] at hc
  obtain ⟨i, hi, rfl⟩ := hc
  exact col_length ht (h i hi)

theorem convert_ok {tbl : List (List (Word 8))} {n : ℕ} (ht : IsTable tbl n) (hw : 62 ≤ tbl.length) :
    rockstarConvert tbl = .ok (encodeCatalog n ((List.range 62).map fun i => tbl.getD i [])) := by
  have h62 : ∀ i ∈ List.range 62, i < tbl.length := fun i hi => by rw [List.mem_range] at hi; omega
  unfold rockstarConvert
  refine Res.bind_ok (readTable_ok tbl (List.range 62) h62) ?_
  refine Res.bind_ok (a := tbl.getD 0 []) rfl ?_
  rw [col_length ht (by omega)]

/-- C78 for columns of the table: reading any selection of columns of the converted catalogue, in any order and with
repetitions, gives what reading them from the text catalogue gives, bit for bit.
Missing: columns outside the table (see `C78_column62_counterexample` and `C78_negative_counterexample`). -/
theorem C78_columns_partial (tbl : List (List (Word 8))) (n : ℕ) (ht : IsTable tbl n) (hn : n < 2 ^ 63)
    (hw : 62 ≤ tbl.length) (idxs : List ℕ) (h : ∀ i ∈ idxs, i < 62) :
    ∃ file, rockstarConvert tbl = .ok file ∧ file.length = 8 + 62 * (8 * n) ∧
      binaryColGetter file (idxs.map fun (i : ℕ) => (i : ℤ)) = readTable tbl (idxs.map fun (i : ℕ) => (i : ℤ)) ∧
      readTable tbl (idxs.map fun (i : ℕ) => (i : ℤ)) = .ok (idxs.map fun i => tbl.getD i []) := by
  have h62 : ∀ i ∈ List.range 62, i < tbl.length := fun i hi => by rw [List.mem_range] at hi; omega
  have ht' := isTable_map ht h62
  refine ⟨_, convert_ok ht hw, ?_, ?_, readTable_ok tbl idxs fun i hi => by have := h i hi; omega⟩
  · unfold encodeCatalog
    rw [List.length_append, encode_length, flatMap_const_length (m := 8 * n) _ fun col hc => by
      rw [bytes_length, ht' col hc]]
    simp
    ring
  · rw [getter_ok ht' hn idxs fun i hi => by have := h i hi; simp; omega,
      readTable_ok tbl idxs fun i hi => by have := h i hi; omega]
    congr 1
    refine List.map_congr_left fun i hi => ?_
    have hi' := h i hi
    rw [List.getD_eq_getElem?_getD, List.getElem?_map, List.getElem?_range hi']
    rfl

/-- A table of bit patterns. -/
def exampleWords : List (List (Word 8)) := List.replicate 62 [1, 2]

example := C78_columns_partial exampleWords 2 (by
    intro col hc
    rw [(List.mem_replicate.mp hc).2]
    rfl) (by norm_num) (by simp [exampleWords]) [11, 17, 11] (by intro i hi; simp at hi; omega)

/-- C78: columns above 62 are rejected by a panic, whatever the file, and column 62 by an error, if the catalogue is not
empty. -/
theorem C78_rejected (tbl : List (List (Word 8))) (n : ℕ) (ht : IsTable tbl n) (hn : n < 2 ^ 63) (hn0 : 0 < n)
    (hw : 62 ≤ tbl.length) :
    ∃ file, rockstarConvert tbl = .ok file ∧ (∀ c : ℤ, 62 < c → binaryColGetter file [c] = .panic) ∧
      binaryColGetter file [62] = .err := by
  have h62 : ∀ i ∈ List.range 62, i < tbl.length := fun i hi => by rw [List.mem_range] at hi; omega
  have ht' := isTable_map ht h62
  refine ⟨_, convert_ok ht hw, ?_, ?_⟩
  · intro c hc
    obtain ⟨r', bs, e, hn'⟩ := header_ok hn ((List.range 62).map fun i => tbl.getD i [])
    unfold binaryColGetter
    refine Res.bind_ok e ?_
    dsimp only
    rw [hn', if_neg (by omega), readColumns, readColumn, if_pos (by unfold valNum; omega)]
    rfl
  · obtain ⟨r', bs, e, hn'⟩ := header_ok hn ((List.range 62).map fun i => tbl.getD i [])
    unfold binaryColGetter
    refine Res.bind_ok e ?_
    dsimp only
    rw [hn', if_neg (by omega), readColumns, readColumn, if_neg (by unfold valNum; omega), if_neg (by omega)]
    have hlen : (encodeCatalog n ((List.range 62).map fun i => tbl.getD i [])).length = 8 + 8 * n * 62 := by
      unfold encodeCatalog
      rw [List.length_append, encode_length, flatMap_const_length (m := 8 * n) _ fun col hc => by
        rw [bytes_length, ht' col hc]]
      simp
    have hread : ∀ m : ℕ, 0 < m → (Rdr.mk (encodeCatalog n ((List.range 62).map fun i => tbl.getD i []))
        (8 + (n : ℤ) * 8 * 62).toNat).readFull m = .err := by
      intro m hm
      unfold Rdr.readFull
      dsimp only
      rw [List.drop_eq_nil_of_le (by rw [hlen]; omega), List.take_nil, if_neg (by simp; omega)]
    dsimp only
    rw [hread _ (by rw [Int.toNat_natCast]; omega)]
    rfl

example := C78_rejected exampleWords 2 (by
    intro col hc
    rw [(List.mem_replicate.mp hc).2]
    rfl) (by norm_num) (by norm_num) (by simp [exampleWords])

/-- C78 fails at the end of the table: for an empty catalogue column 62, which does not exist, is accepted. -/
theorem C78_column62_counterexample :
    rockstarConvert (List.replicate 62 []) = .ok [0, 0, 0, 0, 0, 0, 0, 0] ∧
    binaryColGetter [0, 0, 0, 0, 0, 0, 0, 0] [62] = .ok [[]] := by
  constructor <;> decide +kernel

/-- C78 fails for negative columns: column −1 of a catalogue with one halo is its header. -/
theorem C78_negative_counterexample :
    binaryColGetter (encodeCatalog 1 (List.replicate 62 [5])) [-1] = .ok [[1]] := by decide +kernel

end Verif.Halo
