import Verif.Scripts.SubhaloModel
import Verif.Scripts.Remove
import Verif.Halo.Catalog
import Mathlib.Data.List.GetD

/-! # C183: the subhalo file on its way from the halo program to the profile program -/

set_option autoImplicit false

namespace Verif.Scripts

open Verif.Go Verif.Io Verif.Halo

theorem haloAt_file {α : Type} (toInt : α → ℤ) (ofInt : ℤ → α) (lines : List (HaloRec α)) (i : Nat)
    (hi : i < lines.length) (hr : toInt (ofInt lines[i].ih) = lines[i].ih) :
    haloAt toInt (lines.map fun h => ofInt h.ih) (lines.map fun h => h.x) (lines.map fun h => h.y) (lines.map fun h => h.z)
      (lines.map fun h => h.r) (i : ℤ) = some lines[i] := by
  have e : ∀ f : HaloRec α → α, rd (lines.map f) (i : ℤ) = some (f lines[i]) := by
    intro f
    rw [rd_natCast, List.getElem?_map, List.getElem?_eq_getElem hi]
    rfl
  simp only [haloAt, e, Option.bind_eq_bind, Option.bind_some, hr]

theorem readSubhalos_file {α : Type} [Zero α] (toInt : α → ℤ) (ofInt : ℤ → α) (h : HaloRec α) (l : List (HaloRec α))
    (hr : ∀ k ∈ h :: l, toInt (ofInt k.ih) = k.ih) : readSubhalos toInt (subhaloFile ofInt (h :: l)) = .ok (h, l) := by
  have hat : ∀ i (hi : i < (h :: l).length), haloAt toInt ((h :: l).map fun h => ofInt h.ih) ((h :: l).map fun h => h.x)
      ((h :: l).map fun h => h.y) ((h :: l).map fun h => h.z) ((h :: l).map fun h => h.r) (i : ℤ) = some (h :: l)[i] :=
    fun i hi => haloAt_file toInt ofInt (h :: l) i hi (hr _ (List.getElem_mem hi))
  have e0 := hat 0 (by simp)
  unfold readSubhalos
  refine Res.bind_ok (a := subhaloFile ofInt (h :: l)) rfl (Res.bind_ok rfl (Res.bind_ok rfl (Res.bind_ok rfl (Res.bind_ok rfl
    (Res.bind_ok rfl (Res.bind_ok (a := h) ?_ (Res.bind_ok (a := l) ?_ rfl)))))))
  · rw [show ((0 : ℤ)) = ((0 : Nat) : ℤ) from rfl, e0]
    rfl
  · have hlen : (((h :: l).map fun h => ofInt h.ih).length : ℤ) - 1 = ((l.length : Nat) : ℤ) := by simp
    have hlen' : ((h :: l).map fun h => ofInt h.ih).length - 1 = l.length := by simp
    rw [hlen, hlen']
    obtain ⟨ys, e, h1, h2⟩ := forRange_fill (lo := 0) (hi := l.length) (n := l.length) (fun i => l.getD i h)
      (Nat.zero_le _) (le_refl _) (List.replicate l.length (⟨0, 0, 0, 0, 0⟩ : HaloRec α)) (by simp)
      (fun i shs => do
        let sh ← haloAt toInt ((h :: l).map fun h => ofInt h.ih) ((h :: l).map fun h => h.x) ((h :: l).map fun h => h.y)
          ((h :: l).map fun h => h.z) ((h :: l).map fun h => h.r) (i + 1)
        wr shs i sh) (by
        intro k st _ hk _ _
        have := hat (k + 1) (by simpa using hk)
        rw [Nat.cast_add, Nat.cast_one] at this
        simp only [this, Option.bind_eq_bind, Option.bind_some, List.getElem_cons_succ]
        rw [List.getD_eq_getElem _ _ hk])
    simp only [Nat.cast_zero] at e
    rw [e]
    refine congrArg Res.ok ?_
    apply List.ext_getElem?
    intro i
    rw [h2]
    by_cases hi : i < l.length
    · rw [if_pos ⟨Nat.zero_le _, hi⟩, List.getD_eq_getElem _ _ hi, List.getElem?_eq_getElem hi]
    · rw [if_neg (by omega), List.getElem?_eq_none (by simpa using hi), List.getElem?_eq_none (by omega)]

/-- C183: what the halo program writes about a halo and its subhalos is what the profile program reads: the first line is the
halo, the others are the subhalos in order, each with the index, position and radius of its own row. -/
theorem C183_roundtrip {α : Type} [Zero α] (toInt : α → ℤ) (ofInt : ℤ → α) (hr : ∀ k, toInt (ofInt k) = k) (ih : Nat)
    (subs : List Nat) (xs ys zs rs : List α) (n : Nat) (hx : xs.length = n) (hy : ys.length = n) (hz : zs.length = n)
    (hrs : rs.length = n) (hi : ih < n) (hs : ∀ k ∈ subs, k < n) :
    ∃ lines, subhaloLines ih (subs.map fun k : Nat => (k : ℤ)) xs ys zs rs = some lines ∧
      readSubhalos toInt (subhaloFile ofInt lines) = .ok
        (⟨ih, xs.getD ih 0, ys.getD ih 0, zs.getD ih 0, rs.getD ih 0⟩,
          subs.map fun k : Nat => ⟨k, xs.getD k 0, ys.getD k 0, zs.getD k 0, rs.getD k 0⟩) := by
  have e : ∀ (l : List α) (k : Nat), l.length = n → k < n → rd l (k : ℤ) = some (l.getD k 0) := by
    intro l k hl hk
    rw [rd_natCast, List.getElem?_eq_getElem (by omega), List.getD_eq_getElem _ _ (by omega)]
  have hn : ∀ k < n, newHalo (k : ℤ) xs ys zs rs = some ⟨k, xs.getD k 0, ys.getD k 0, zs.getD k 0, rs.getD k 0⟩ := by
    intro k hk
    simp only [newHalo, e xs k hx hk, e ys k hy hk, e zs k hz hk, e rs k hrs hk, Option.bind_eq_bind, Option.bind_some]
  have hm : (subs.map fun k : Nat => (k : ℤ)).mapM (fun k => newHalo k xs ys zs rs) =
      some (subs.map fun k : Nat => ⟨k, xs.getD k 0, ys.getD k 0, zs.getD k 0, rs.getD k 0⟩) := by
    clear hi
    induction subs with
    | nil => rfl
    | cons a subs ihs =>
      rw [List.map_cons, List.mapM_cons, hn a (hs a (by simp)), ihs fun k hk => hs k (by simp [hk])]
      rfl
  refine ⟨_, by simp only [subhaloLines, hn ih hi, hm, Option.bind_eq_bind, Option.bind_some]; rfl, ?_⟩
  exact readSubhalos_file toInt ofInt _ _ fun k _ => hr k.ih

/-- C183: a file without lines is a panic, one with fewer than five columns an error. -/
theorem C183_errors {α : Type} [Zero α] (toInt : α → ℤ) (ofInt : ℤ → α) (tbl : List (List α)) :
    readSubhalos toInt (subhaloFile ofInt []) = .panic ∧ (tbl.length < 5 → readSubhalos toInt tbl = .err) := by
  refine ⟨rfl, fun h => ?_⟩
  rcases tbl with _ | ⟨a, _ | ⟨b, _ | ⟨c, _ | ⟨d, _ | ⟨e, t⟩⟩⟩⟩⟩
  · rfl
  · rfl
  · rfl
  · rfl
  · rfl
  · simp at h
    omega

theorem trunc_intCast (k : ℤ) : trunc (k : ℚ) = k := by
  unfold trunc
  split_ifs <;> simp

/-- C183: the image cleaned by the profile program with the file of the halo program: exactly the cells that the cube around
one of the subhalos of the catalogue touches are NaN, the others keep their value. As C113, for subhalos that the program
can handle. -/
theorem C183_cleaned_partial (ih : Nat) (subs : List Nat) (xs ys zs rs : List ℚ) (n : Nat) (hx : xs.length = n)
    (hy : ys.length = n) (hz : zs.length = n) (hrs : rs.length = n) (hi : ih < n) (hs : ∀ k ∈ subs, k < n) (bh : Bounds)
    (width : ℚ) (cells : ℤ) (grid : List Fl) (hW : 0 < width) (hc : 0 < cells) (ho : ∀ j, bh.origin j < cells)
    (hsp : ∀ j, bh.span j ≤ cells) (hg : (grid.length : ℤ) = bh.span 0 * bh.span 1 * bh.span 2)
    (hsh : ∀ k ∈ subs, Handled width cells bh ⟨![xs.getD k 0, ys.getD k 0, zs.getD k 0], rs.getD k 0⟩) :
    ∃ lines g', subhaloLines ih (subs.map fun k : Nat => (k : ℤ)) xs ys zs rs = some lines ∧
      cleanGrid bh (width / cells) width (subhaloFile (fun k : ℤ => (k : ℚ)) lines) grid = .ok g' ∧ g'.length = grid.length ∧
      ∀ p : Fin 3 → ℤ, (∀ j, 0 ≤ p j ∧ p j < bh.span j) →
        ((∃ k ∈ subs, Touches width cells bh ⟨![xs.getD k 0, ys.getD k 0, zs.getD k 0], rs.getD k 0⟩ p) →
          cellOf bh g' p = some .nan) ∧
        ((¬ ∃ k ∈ subs, Touches width cells bh ⟨![xs.getD k 0, ys.getD k 0, zs.getD k 0], rs.getD k 0⟩ p) →
          cellOf bh g' p = cellOf bh grid p) := by
  obtain ⟨lines, e1, e2⟩ := C183_roundtrip trunc (fun k : ℤ => (k : ℚ)) trunc_intCast ih subs xs ys zs rs n hx hy hz hrs hi hs
  obtain ⟨g', e3, e4, e5⟩ := C113_removed_partial bh width cells
    (subs.map fun k => ⟨![xs.getD k 0, ys.getD k 0, zs.getD k 0], rs.getD k 0⟩) grid hW hc ho hsp hg (by
      intro sh hm
      obtain ⟨k, hk, rfl⟩ := List.mem_map.1 hm
      exact hsh k hk)
  refine ⟨lines, g', e1, ?_, e4, ?_⟩
  · unfold cleanGrid
    refine Res.bind_ok e2 ?_
    simp only [List.map_map]
    rw [show (HaloRec.sphere ∘ fun k : Nat => (⟨k, xs.getD k 0, ys.getD k 0, zs.getD k 0, rs.getD k 0⟩ : HaloRec ℚ)) =
      fun k : Nat => ⟨![xs.getD k 0, ys.getD k 0, zs.getD k 0], rs.getD k 0⟩ from rfl, e3]
    rfl
  · intro p hp
    have := e5 p hp
    simp only [List.mem_map, exists_exists_and_eq_and] at this
    exact this

example : ∃ lines, subhaloLines 2 [0, 1] [(1 : ℚ), 2, 3, 4] [5, 6, 7, 8] [1, 1, 2, 2] [1, 2, 1, 3] = some lines ∧
    readSubhalos trunc (subhaloFile (fun k : ℤ => (k : ℚ)) lines) = .ok (⟨2, 3, 7, 2, 1⟩, [⟨0, 1, 5, 1, 1⟩, ⟨1, 2, 6, 1, 2⟩]) :=
  ⟨[⟨2, 3, 7, 2, 1⟩, ⟨0, 1, 5, 1, 1⟩, ⟨1, 2, 6, 1, 2⟩], by decide +kernel, by decide +kernel⟩

example : (∀ j, exBounds.origin j < 10) ∧ (∀ j, exBounds.span j ≤ 10) ∧
    (∀ k ∈ [2, 0], Handled 10 10 exBounds ⟨![[19 / 2, 1, 3 / 2].getD k 0, [19 / 2, 1, 17 / 2].getD k 0,
      [19 / 2, 1, 1 / 2].getD k 0], [1, 4, 1 / 4].getD k 0⟩) ∧
    (subhaloLines 1 [2, 0] [19 / 2, 1, 3 / 2] [19 / 2, 1, 17 / 2] [19 / 2, 1, 1 / 2] [1, 4, 1 / 4]).map (fun lines =>
      match cleanGrid exBounds 1 10 (subhaloFile (fun k : ℤ => (k : ℚ)) lines) (List.replicate 64 (.num 3)) with
      | .ok g => (g.count .nan, g.length)
      | _ => (0, 0)) = some (28, 64) := by
  refine ⟨by decide, by decide, ?_, by decide +kernel⟩
  intro k h
  simp only [List.mem_cons, List.not_mem_nil, or_false] at h
  rcases h with rfl | rfl
  · exact ⟨by decide +kernel, by decide +kernel, by decide +kernel, by decide +kernel, by decide +kernel⟩
  · exact ⟨by decide +kernel, by decide +kernel, by decide +kernel, by decide +kernel, by decide +kernel⟩

/-- C183: in a list that does not grow, the index found is the number of entries that are not below the limit, and the entries
before it are those. -/
theorem C183_findIdx (x : ℚ) (xs : List ℚ) (h : xs.Pairwise (· ≥ ·)) :
    ∃ k : Nat, findIdx x xs = k ∧ k ≤ xs.length ∧ (∀ v ∈ xs.take k, x ≤ v) ∧ ∀ v ∈ xs.drop k, v < x := by
  induction xs with
  | nil => exact ⟨0, rfl, le_refl _, by simp, by simp⟩
  | cons a xs ih =>
    obtain ⟨h1, h2⟩ := List.pairwise_cons.1 h
    unfold findIdx
    split_ifs with ha
    · refine ⟨0, rfl, Nat.zero_le _, by simp, ?_⟩
      intro v hv
      rcases List.mem_cons.1 (by simpa using hv) with rfl | hv
      · exact ha
      · exact lt_of_le_of_lt (h1 v hv) ha
    · obtain ⟨k, e1, e2, e3, e4⟩ := ih h2
      refine ⟨k + 1, by rw [e1]; push_cast; ring, by simpa using e2, ?_, by simpa using e4⟩
      intro v hv
      rcases List.mem_cons.1 (by simpa using hv) with rfl | hv
      · exact not_lt.1 ha
      · exact e3 v hv

example : findIdx 4 [9, 7, 4, 2, 1] = 3 := by decide +kernel

end Verif.Scripts
