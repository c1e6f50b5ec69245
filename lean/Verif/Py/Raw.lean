import Verif.Py.RawModel
import Verif.Py.Split
import Verif.Py.Rebin
import Verif.Py.VecDeriv
import Verif.Py.Tree

/-! # C178, C179: segments of profiles and their slopes -/

set_option autoImplicit false

namespace Verif.Py

open Verif.Go

theorem eq_tab (xs : List ℚ) : xs = tab xs.length fun i => xs.getD i 0 := by
  apply List.ext_getElem
  · rw [tab_length]
  · intro i h1 h2
    simp [tab, List.getElem?_eq_getElem h1]

/-- Fourth order differences of any table: the entries away from the ends. -/
theorem vectorDeriv4 (n : Nat) (hn : 5 ≤ n) (X Y : Nat → ℚ) :
    ∃ g : Nat → ℚ, vectorDeriv (tab n X) (tab n Y) 4 = some (tab n g) ∧
      ∀ j, j + 4 < n → g (j + 2) = (-Y j + 8 * Y (j + 1) - 8 * Y (j + 3) + Y (j + 4)) / (3 * (X j - X (j + 4))) := by
  obtain ⟨m, rfl⟩ : ∃ m, n = m + 5 := ⟨n - 5, by omega⟩
  unfold vectorDeriv
  rw [if_neg (by simp [tab_length]), if_neg (by norm_num), if_pos rfl]
  unfold vecDeriv4 num4
  have q : ∀ (f : Nat → ℚ), pyRd (tab (m + 5) f) 0 = some (f 0) ∧ pyRd (tab (m + 5) f) 1 = some (f 1) ∧
      pyRd (tab (m + 5) f) 2 = some (f 2) ∧ pyRd (tab (m + 5) f) 3 = some (f 3) ∧ pyRd (tab (m + 5) f) 4 = some (f 4) ∧
      pyRd (tab (m + 5) f) (-1) = some (f (m + 4)) ∧ pyRd (tab (m + 5) f) (-2) = some (f (m + 3)) ∧
      pyRd (tab (m + 5) f) (-3) = some (f (m + 2)) ∧ pyRd (tab (m + 5) f) (-4) = some (f (m + 1)) ∧
      pyRd (tab (m + 5) f) (-5) = some (f m) := by
    intro f
    refine ⟨pyRd_tab f 0 (by omega), pyRd_tab f 1 (by omega), pyRd_tab f 2 (by omega), pyRd_tab f 3 (by omega),
      pyRd_tab f 4 (by omega), ?_, ?_, ?_, ?_, ?_⟩
    · exact pyRd_tab_neg f 1 (by omega) (by omega)
    · exact pyRd_tab_neg f 2 (by omega) (by omega)
    · exact pyRd_tab_neg f 3 (by omega) (by omega)
    · exact pyRd_tab_neg f 4 (by omega) (by omega)
    · exact pyRd_tab_neg f 5 (by omega) (by omega)
  obtain ⟨x1, x2, x3, x4, x5, x6, x7, x8, x9, x10⟩ := q X
  obtain ⟨y1, y2, y3, y4, y5, y6, y7, y8, y9, y10⟩ := q Y
  simp only [x1, x5, x6, x10, y1, y2, y3, y4, y5, y6, y7, y8, y9, y10, Option.bind_eq_bind, Option.bind_some, roll_tab,
    zipWith_tab, map_tab]
  have w0 : ∀ (f : Nat → ℚ) v, pyWr (tab (m + 5) f) 0 v = some (tab (m + 5) fun j => if j = 0 then v else f j) :=
    fun f v => pyWr_tab f 0 (by omega) v
  have w1 : ∀ (f : Nat → ℚ) v, pyWr (tab (m + 5) f) 1 v = some (tab (m + 5) fun j => if j = 1 then v else f j) :=
    fun f v => pyWr_tab f 1 (by omega) v
  have w2 : ∀ (f : Nat → ℚ) v, pyWr (tab (m + 5) f) (-2) v = some (tab (m + 5) fun j => if j = m + 3 then v else f j) :=
    fun f v => pyWr_tab_neg f 2 (by omega) (by omega) v
  have w3 : ∀ (f : Nat → ℚ) v, pyWr (tab (m + 5) f) (-1) v = some (tab (m + 5) fun j => if j = m + 4 then v else f j) :=
    fun f v => pyWr_tab_neg f 1 (by omega) (by omega) v
  simp only [w0, w1, w2, w3, Option.bind_some]
  refine ⟨_, rfl, ?_⟩
  intro j hj
  rw [if_neg (by omega), if_neg (by omega), if_neg (by omega), if_neg (by omega)]
  rw [rolled _ (show ((j + 2 : Nat) : Int) - 2 = (j : Nat) by push_cast; ring) (by omega),
    rolled _ (show ((j + 2 : Nat) : Int) - 1 = (j + 1 : Nat) by push_cast; ring) (by omega),
    rolled _ (show ((j + 2 : Nat) : Int) - (-1) = (j + 3 : Nat) by push_cast; ring) (by omega),
    rolled _ (show ((j + 2 : Nat) : Int) - (-2) = (j + 4 : Nat) by push_cast; ring) (by omega),
    rolled _ (show ((j + 2 : Nat) : Int) - 2 = (j : Nat) by push_cast; ring) (by omega),
    rolled _ (show ((j + 2 : Nat) : Int) - (-2) = (j + 4 : Nat) by push_cast; ring) (by omega)]

theorem vectorDeriv_some (xs ys : List ℚ) (hl : xs.length = ys.length) (h : 5 ≤ xs.length) :
    ∃ d, vectorDeriv xs ys 4 = some d ∧ d.length = xs.length := by
  obtain ⟨g, e, _⟩ := vectorDeriv4 xs.length h (fun i => xs.getD i 0) (fun i => ys.getD i 0)
  have e1 := eq_tab xs
  have e2 := eq_tab ys
  rw [← hl] at e2
  rw [← e1, ← e2] at e
  exact ⟨tab xs.length g, e, tab_length _ _⟩

theorem mapM_forall₂ {α β : Type} (f : α → Option β) (Q : α → β → Prop) (l : List α)
    (h : ∀ a ∈ l, ∃ b, f a = some b ∧ Q a b) : ∃ bs, l.mapM f = some bs ∧ List.Forall₂ Q l bs := by
  induction l with
  | nil => exact ⟨[], rfl, List.Forall₂.nil⟩
  | cons a l ih =>
    obtain ⟨b, e, hb⟩ := h a (by simp)
    obtain ⟨bs, e', hbs⟩ := ih fun x hx => h x (by simp [hx])
    refine ⟨b :: bs, ?_, List.Forall₂.cons hb hbs⟩
    rw [List.mapM_cons, e, e']; rfl

theorem mapM_index {α β : Type} (f : Nat → Option β) (l : List α) (Q : α → β → Prop)
    (h : ∀ i a, l[i]? = some a → ∃ b, f i = some b ∧ Q a b) :
    ∃ bs, (List.range l.length).mapM f = some bs ∧ List.Forall₂ Q l bs := by
  induction l using List.reverseRecOn with
  | nil => exact ⟨[], rfl, List.Forall₂.nil⟩
  | append_singleton l a ih =>
    obtain ⟨bs, e, hbs⟩ := ih fun i x hx => h i x (by
      obtain ⟨hi, _⟩ := List.getElem?_eq_some_iff.1 hx
      rw [List.getElem?_append_left hi]; exact hx)
    obtain ⟨b, e', hb⟩ := h l.length a (by simp)
    refine ⟨bs ++ [b], ?_, List.rel_append hbs (List.Forall₂.cons hb List.Forall₂.nil)⟩
    rw [List.length_append, List.length_singleton, List.range_succ, List.mapM_append, e]
    simp [e']

/-! ## C178 -/

/-- For positive densities radii, densities, logarithms and slopes of a segment belong together: segments are those with more
than five points, in order, and slopes are the fourth order differences of the logarithms of the segment. -/
theorem C178_aligned_partial (lg : ℚ → ℚ) (groups : List (List ℚ × List ℚ)) (hl : ∀ g ∈ groups, g.1.length = g.2.length)
    (hp : ∀ g ∈ groups, ∀ ρ ∈ g.2, 0 < ρ) :
    ∃ lds : List (List ℚ),
      abstractProfile lg groups = some
        ⟨(groups.filter fun g => 5 < g.1.length).map Prod.fst, (groups.filter fun g => 5 < g.1.length).map Prod.snd,
          (groups.filter fun g => 5 < g.1.length).map fun g => g.1.map lg,
          (groups.filter fun g => 5 < g.1.length).map fun g => g.2.map lg, lds⟩ ∧
      List.Forall₂ (fun g d => vectorDeriv (g.1.map lg) (g.2.map lg) 4 = some d ∧ d.length = g.1.length)
        (groups.filter fun g => 5 < g.1.length) lds := by
  set kept := groups.filter fun g => 5 < g.1.length with hk
  have hany : groups.any (fun g => decide (g.1.length ≠ g.2.length)) = false := by
    rw [List.any_eq_false]
    intro g hg
    simp [hl g hg]
  have hval : ∀ g ∈ groups, (g.1.zip g.2).filter (fun p => decide (0 < p.2)) = g.1.zip g.2 := by
    intro g hg
    rw [List.filter_eq_self]
    rintro ⟨a, b⟩ hp'
    simpa using hp g hg b (List.of_mem_zip hp').2
  have s : ∀ (f : List ℚ × List ℚ → List ℚ), (∀ g ∈ groups, (f g).length = g.1.length) →
      sizeCheck (groups.map f) = kept.map f := by
    intro f hf
    unfold sizeCheck
    rw [List.filter_map, hk]
    congr 1
    refine List.filter_congr fun g hg => ?_
    simp [hf g hg]
  have v1 : (groups.map fun g => (g.1.zip g.2).filter fun p => decide (0 < p.2)).map (fun l => l.map fun p => lg p.1) =
      groups.map fun g => g.1.map lg := by
    rw [List.map_map]
    refine List.map_congr_left fun g hg => ?_
    simp only [Function.comp_apply, hval g hg]
    rw [show (fun p : ℚ × ℚ => lg p.1) = lg ∘ Prod.fst from rfl, ← List.map_map, List.map_fst_zip (hl g hg).le]
  have v2 : (groups.map fun g => (g.1.zip g.2).filter fun p => decide (0 < p.2)).map (fun l => l.map fun p => lg p.2) =
      groups.map fun g => g.2.map lg := by
    rw [List.map_map]
    refine List.map_congr_left fun g hg => ?_
    simp only [Function.comp_apply, hval g hg]
    rw [show (fun p : ℚ × ℚ => lg p.2) = lg ∘ Prod.snd from rfl, ← List.map_map, List.map_snd_zip (hl g hg).ge]
  unfold abstractProfile
  rw [hany]
  simp only [Bool.false_eq_true, if_false]
  rw [v1, v2, s Prod.fst fun _ _ => rfl, s Prod.snd fun g hg => (hl g hg).symm, s (fun g => g.1.map lg) (by simp),
    s (fun g => g.2.map lg) (fun g hg => by simp [hl g hg])]
  obtain ⟨lds, e, h⟩ := mapM_index (fun i => do
        let x ← (kept.map fun g => g.1.map lg)[i]?
        let y ← (kept.map fun g => g.2.map lg)[i]?
        vectorDeriv x y 4) kept
      (fun g d => vectorDeriv (g.1.map lg) (g.2.map lg) 4 = some d ∧ d.length = g.1.length) (by
    intro i g hg
    have hm := List.mem_filter.1 (List.mem_of_getElem? hg)
    have h5 : 5 < g.1.length := by simpa using hm.2
    obtain ⟨d, e, h⟩ := vectorDeriv_some (g.1.map lg) (g.2.map lg) (by simp [hl g hm.1]) (by simp; omega)
    refine ⟨d, ?_, e, by simpa using h⟩
    simp [List.getElem?_map, hg, e])
  refine ⟨lds, ?_, h⟩
  rw [List.length_map, e]
  rfl

/-- One segment: there are as many radii as points and as many slopes as positive densities; at most five of these are an
error. -/
theorem abstractProfile_one (lg : ℚ → ℚ) (xs ys : List ℚ) (hl : xs.length = ys.length) (h5 : 5 < xs.length) :
    (5 < ((xs.zip ys).filter fun p => decide (0 < p.2)).length →
      (abstractProfile lg [(xs, ys)]).map (fun p => (p.rs.map List.length, p.lderivs.map List.length)) =
        some ([xs.length], [((xs.zip ys).filter fun p => decide (0 < p.2)).length])) ∧
    (((xs.zip ys).filter fun p => decide (0 < p.2)).length ≤ 5 → abstractProfile lg [(xs, ys)] = none) := by
  generalize hf : (xs.zip ys).filter (fun p => decide (0 < p.2)) = f
  have h5' : 5 < ys.length := by omega
  constructor
  · intro h
    obtain ⟨d, e, hd⟩ := vectorDeriv_some (f.map fun p => lg p.1) (f.map fun p => lg p.2) (by simp) (by simp; omega)
    unfold abstractProfile
    simp only [List.any_cons, List.any_nil, List.map_cons, List.map_nil, hf, sizeCheck]
    simp [hl, List.range_succ, e, hd, h, h5']
  · intro h
    unfold abstractProfile
    simp only [List.any_cons, List.any_nil, List.map_cons, List.map_nil, hf, sizeCheck]
    simp [hl, List.range_succ, h5', not_lt.2 h]

/-- A density of 0 in a segment of seven points: seven radii and six slopes. In a segment of six points: an error. -/
theorem C178_counterexample (lg : ℚ → ℚ) :
    ((abstractProfile lg [([1, 2, 3, 4, 5, 6, 7], [1, 1, 0, 1, 1, 1, 1])]).map fun p =>
      (p.rs.map List.length, p.lderivs.map List.length)) = some ([7], [6]) ∧
    abstractProfile lg [([1, 2, 3, 4, 5, 6], [1, 1, 0, 1, 1, 1])] = none := by
  have f7 : ((List.zip [(1 : ℚ), 2, 3, 4, 5, 6, 7] [(1 : ℚ), 1, 0, 1, 1, 1, 1]).filter
      (fun p => decide (0 < p.2))).length = 6 := by decide +kernel
  have f6 : ((List.zip [(1 : ℚ), 2, 3, 4, 5, 6] [(1 : ℚ), 1, 0, 1, 1, 1]).filter
      (fun p => decide (0 < p.2))).length = 5 := by decide +kernel
  constructor
  · have h := (abstractProfile_one lg [1, 2, 3, 4, 5, 6, 7] [1, 1, 0, 1, 1, 1, 1] rfl (by simp)).1
    rw [f7] at h
    exact h (by norm_num)
  · exact (abstractProfile_one lg [1, 2, 3, 4, 5, 6] [1, 1, 0, 1, 1, 1] rfl (by simp)).2 f6.le

example : ((abstractProfile (fun x => x) [([1, 2, 3, 4, 5, 6], [2, 4, 6, 8, 10, 12]), ([7], [3])]).map Prof.lderivs) =
    some [[2, 2, 2, 2, 2, 2]] := by decide +kernel

/-! ## C179 -/

theorem Runs.group {α : Type} {nan : α → Bool} {l : List α} {gs : List (List α)} (h : Runs nan l gs) :
    ∀ g ∈ gs, g <:+: l ∧ ∀ a ∈ g, nan a = false := by
  induction h with
  | nil => simp
  | @skip a l gs _ _ ih =>
    intro g hg
    obtain ⟨h1, h2⟩ := ih g hg
    exact ⟨h1.trans (List.suffix_cons a l).isInfix, h2⟩
  | @run g l gs _ h2 _ _ ih =>
    intro g' hg
    rcases List.mem_cons.1 hg with rfl | hg
    · exact ⟨(List.prefix_append _ _).isInfix, h2⟩
    · obtain ⟨h3, h4⟩ := ih g' hg
      exact ⟨h3.trans (List.suffix_append _ _).isInfix, h4⟩

theorem mapM_id_some (l : List F) (h : ∀ a ∈ l, a ≠ none) : ∃ xs, l = xs.map some ∧ l.mapM id = some xs := by
  induction l with
  | nil => exact ⟨[], rfl, rfl⟩
  | cons a l ih =>
    obtain ⟨xs, e, e'⟩ := ih fun b hb => h b (by simp [hb])
    rcases a with _ | a
    · exact absurd rfl (h none (by simp))
    · refine ⟨a :: xs, by simp [e], ?_⟩
      rw [List.mapM_cons, e']; rfl

theorem centres_tab (n : Nat) (f : Nat → ℚ) : centres (tab (n + 1) f) = tab n fun i => (f (i + 1) + f i) / 2 := by
  apply List.ext_getElem
  · simp [centres, tab_length]
  · intro i h1 h2
    simp [centres, tab]

theorem binEdges_pairwise {low high : ℚ} {bins : Nat} (h : low < high) (hb : 0 < bins) :
    (binEdges low high bins).Pairwise (· < ·) := by
  unfold binEdges
  rw [List.pairwise_map]
  refine List.pairwise_lt_range.imp ?_
  intro a b hab
  have hd : 0 < (high - low) / bins := div_pos (by linarith) (by exact_mod_cast hb)
  have : (a : ℚ) < b := by exact_mod_cast hab
  nlinarith

/-- Blocks of evenly spaced edges are evenly spaced. -/
theorem infix_edges {low high : ℚ} {bins : Nat} {E : List ℚ} (h : E <:+: binEdges low high bins) :
    ∃ e0, E = tab E.length fun i => e0 + i * ((high - low) / bins) := by
  obtain ⟨a, b, hab⟩ := h
  refine ⟨low + a.length * ((high - low) / bins), ?_⟩
  apply List.ext_getElem
  · rw [tab_length]
  · intro i h1 h2
    have h3 : (binEdges low high bins)[a.length + i]? = some E[i] := by
      rw [← hab, List.append_assoc, List.getElem?_append_right (by omega), Nat.add_sub_cancel_left,
        List.getElem?_append_left h1, List.getElem?_eq_getElem h1]
    unfold binEdges at h3
    rw [List.getElem?_map] at h3
    obtain ⟨k, hk, e⟩ := Option.map_eq_some_iff.1 h3
    have hk' : k = a.length + i := by
      obtain ⟨hlt, e2⟩ := List.getElem?_eq_some_iff.1 hk
      simpa using e2.symm
    rw [← e, hk']
    simp only [tab, List.getElem_map, List.getElem_range]
    push_cast
    ring

/-- What is asked of the spline: straight lines are integrated exactly. -/
def LineExact (spline : List ℚ → List ℚ → ℚ → ℚ → ℚ) (α β : ℚ) : Prop :=
  ∀ xs ys a b, xs.length = ys.length → 3 < xs.length → xs.Pairwise (· < ·) → (∀ p ∈ xs.zip ys, p.2 = α * p.1 + β) →
    spline xs ys a b = α * (b ^ 2 - a ^ 2) / 2 + β * (b - a)

/-- The values of inner bins of a rebinned line are those at the centres. -/
theorem rebinned_line {I : ℚ → ℚ → ℚ} {α β low high x0 xl : ℚ} {bins : Nat} {E V : List ℚ} (hlh : low < high) (hb : 0 < bins)
    (hI : ∀ a b, I a b = α * (b ^ 2 - a ^ 2) / 2 + β * (b - a)) (h : Rebinned I x0 xl (binEdges low high bins) E V)
    (h5 : 5 < V.length) : ∃ c0, centres E = tab V.length (fun i => c0 + i * ((high - low) / bins)) ∧
      ∀ k, 0 < k → k + 1 < V.length → V.getD k 0 = α * (c0 + k * ((high - low) / bins)) + β := by
  have hE : E <:+: binEdges low high bins := by
    rcases h.origin with h1 | h1
    · have := h.len
      rw [h1] at this
      simp at this
      omega
    · exact h1
  obtain ⟨e0, he⟩ := infix_edges hE
  rw [h.len] at he
  have hg : ∀ k, k ≤ V.length → E.getD k 0 = e0 + k * ((high - low) / bins) := by
    intro k hk
    rw [he]
    exact tab_getD _ (by omega)
  refine ⟨e0 + (high - low) / bins / 2, ?_, ?_⟩
  · rw [he, centres_tab]
    refine tab_congr fun i _ => ?_
    push_cast; ring
  · intro k h0 hk
    obtain ⟨a1, a2⟩ := h.avg k (by omega)
    obtain ⟨b1, _⟩ := h.avg (k - 1) (by omega)
    obtain ⟨c1, _⟩ := h.avg (k + 1) (by omega)
    rw [show k - 1 + 1 = k by omega] at b1
    have l1 : x0 < E.getD k 0 := lt_of_le_of_lt (le_max_right _ _) (lt_of_lt_of_le b1 (min_le_left _ _))
    have l2 : E.getD (k + 1) 0 < xl := lt_of_le_of_lt (le_max_left _ _) (lt_of_lt_of_le c1 (min_le_right _ _))
    rw [max_eq_left l1.le, min_eq_left l2.le] at a2
    rw [a2, hI, hg k (by omega), hg (k + 1) (by omega)]
    have hd : 0 < (high - low) / bins := div_pos (by linarith) (by exact_mod_cast hb)
    set δ := (high - low) / bins with hδ
    push_cast
    rw [div_eq_iff (by ring_nf; exact hd.ne')]
    ring

theorem rawSegment_line {lg : ℚ → ℚ} {spline : List ℚ → List ℚ → ℚ → ℚ → ℚ} {α β low high : ℚ} {bins : Nat}
    (hlh : low < high) (hb : 0 < bins) (hs : LineExact spline α β) (xs ys : List ℚ) (hl : xs.length = ys.length)
    (hx : (xs.map lg).Pairwise (· < ·)) (hp : ∀ p ∈ xs.zip ys, lg p.2 = α * lg p.1 + β) :
    ∃ c, rawSegment lg (binEdges low high bins) spline (xs.map some, ys.map some) = some c ∧
      ∀ E V, c = some (E, V) → E.length = V.length + 1 ∧ (5 < V.length → ∃ c0,
        centres E = tab V.length (fun i => c0 + i * ((high - low) / bins)) ∧
        ∀ k, 0 < k → k + 1 < V.length → V.getD k 0 = α * (c0 + k * ((high - low) / bins)) + β) := by
  have e1 : ∀ l : List ℚ, (l.map some).mapM id = some l := by
    intro l
    induction l with
    | nil => rfl
    | cons a l ih => rw [List.map_cons, List.mapM_cons, ih]; rfl
  have e0 : rawSegment lg (binEdges low high bins) spline (xs.map some, ys.map some) =
      convert true (binEdges low high bins) spline (xs.map lg) (ys.map lg) := by
    unfold rawSegment
    rw [e1, e1]; rfl
  have he := binEdges_pairwise hlh hb
  have h2 : 2 ≤ (binEdges low high bins).length := by
    unfold binEdges
    simp
    omega
  obtain ⟨c1, c2⟩ := C160_convert true _ he h2 spline (xs.map lg) (ys.map lg) (by simp [hl]) hx
  rcases Nat.lt_or_ge 3 (inside (binEdges low high bins) (xs.map lg) (ys.map lg)).length with h | h
  · obtain ⟨x0, xl, E, V, e, _, _, hr⟩ := c2 h
    have hr := hr (Or.inl rfl)
    refine ⟨some (E, V), by rw [e0, e], ?_⟩
    rintro E' V' e'
    obtain ⟨rfl, rfl⟩ : E = E' ∧ V = V' := by simpa using e'
    refine ⟨hr.len, fun h5 => rebinned_line hlh hb (fun a b => hs _ _ a b ?_ ?_ ?_ ?_) hr h5⟩
    · simp
    · simpa using h
    · refine hx.sublist ?_
      have h1 : ((inside (binEdges low high bins) (xs.map lg) (ys.map lg)).map Prod.fst).Sublist
          (((xs.map lg).zip (ys.map lg)).map Prod.fst) := (List.filter_sublist (l := (xs.map lg).zip (ys.map lg))).map _
      rwa [List.map_fst_zip (by simp [hl])] at h1
    · intro p hp'
      have e2 : ((inside (binEdges low high bins) (xs.map lg) (ys.map lg)).map Prod.fst).zip
          ((inside (binEdges low high bins) (xs.map lg) (ys.map lg)).map Prod.snd) =
          inside (binEdges low high bins) (xs.map lg) (ys.map lg) := by
        rw [List.zip_map']; simp
      rw [e2] at hp'
      have := (List.mem_filter.1 hp').1
      rw [List.zip_map] at this
      obtain ⟨q, hq, rfl⟩ := List.mem_map.1 this
      exact hp q hq
  · exact ⟨none, by rw [e0, c1 h], by simp⟩

/-- Lists without their NaN values. -/
theorem reduceOption_map_some (l : List ℚ) : (l.map some).filterMap id = l := by
  induction l with
  | nil => rfl
  | cons a l _ => simp

/-- C179: densities on a power law, with gaps of NaN and non-positive densities: the constructor succeeds, the logarithms of
the radii of every segment are evenly spaced, and its slopes are exactly the exponent away from three points at either end. -/
theorem C179_power_law_partial (lg pw : ℚ → ℚ) (spline : List ℚ → List ℚ → ℚ → ℚ → ℚ) (α β low high : ℚ) (bins : Nat)
    (hlh : low < high) (hb : 0 < bins) (hs : LineExact spline α β) (hmono : ∀ a b, 0 < a → a < b → lg a < lg b)
    (hpos : ∀ x, 0 < pw x) (hinv : ∀ x, lg (pw x) = x) (rs rhos : List F) (hl : rs.length = rhos.length)
    (h0 : ∃ r ∈ rs, r ≠ some 0) (hfirst : ∀ r, rs[0]? = some (some r) → 0 ≤ r)
    (hrest : ∀ i r, 0 < i → rs[i]? = some (some r) → 0 < r) (hinc : (rs.filterMap id).Pairwise (· < ·))
    (hlaw : ∀ r ρ, (some r, some ρ) ∈ rs.zip rhos → r ≠ 0 → 0 < ρ → lg ρ = α * lg r + β) :
    ∃ P, rawProfile lg pw (binEdges low high bins) spline rs rhos = some P ∧ P.lrs.length = P.rs.length ∧
      P.lderivs.length = P.rs.length ∧ ∀ (s : Nat) (lr ld : List ℚ), P.lrs[s]? = some lr → P.lderivs[s]? = some ld →
        ld.length = lr.length ∧ 5 < lr.length ∧
        (∃ c0, lr = tab lr.length fun i => c0 + i * ((high - low) / bins)) ∧
        ∀ i, 3 ≤ i → i + 3 < lr.length → ld.getD i 0 = α := by
  obtain ⟨r0, rt, rfl⟩ : ∃ r0 rt, rs = r0 :: rt := by
    obtain ⟨r, hr, _⟩ := h0
    cases rs with
    | nil => simp at hr
    | cons a b => exact ⟨a, b, rfl⟩
  obtain ⟨ρ0, ρt, rfl⟩ : ∃ ρ0 ρt, rhos = ρ0 :: ρt := by
    cases rhos with
    | nil => simp at hl
    | cons a b => exact ⟨a, b, rfl⟩
  set rs' := if r0 = some 0 then (r0 :: rt).drop 1 else r0 :: rt with hrs'
  set rhos' := if r0 = some 0 then (ρ0 :: ρt).drop 1 else ρ0 :: ρt with hrhos'
  have hl' : rs'.length = (rhos'.map nanIfNotPos).length := by
    rw [hrs', hrhos']
    split <;> simp_all
  have hne : rs' ≠ [] := by
    rw [hrs']
    split
    · rename_i h
      rcases rt with _ | ⟨a, b⟩
      · obtain ⟨r, hr, hr'⟩ := h0
        simp at hr
        exact absurd (hr.trans h) hr'
      · simp
    · simp
  -- entries of the shortened arrays
  have hsub : rs'.Sublist (r0 :: rt) := by
    rw [hrs']
    split
    · exact List.drop_sublist _ _
    · exact List.Sublist.refl _
  have hrpos : ∀ r, some r ∈ rs' → 0 < r := by
    intro r hr
    rw [hrs'] at hr
    split at hr
    · obtain ⟨i, hi⟩ := List.mem_iff_getElem?.1 hr
      exact hrest (i + 1) r (by omega) (by simpa using hi)
    · rename_i h
      obtain ⟨i, hi⟩ := List.mem_iff_getElem?.1 hr
      rcases Nat.eq_zero_or_pos i with rfl | h'
      · have h1 : r0 = some r := by simpa using hi
        have h2 := hfirst r hi
        refine lt_of_le_of_ne h2 ?_
        rintro rfl
        exact h h1
      · exact hrest i r h' hi
  have hzip : ∀ p ∈ rs'.zip rhos', p ∈ (r0 :: rt).zip (ρ0 :: ρt) := by
    intro p hp
    rw [hrs', hrhos'] at hp
    split at hp
    · simpa using Or.inr hp
    · exact hp
  obtain ⟨gs, e1, hg1, hg2⟩ := C158_nan_split rs' (rhos'.map nanIfNotPos) hl' hne
  have hgroups : ∀ g ∈ gs, ∃ c, rawSegment lg (binEdges low high bins) spline g = some c ∧
      ∀ E V, c = some (E, V) → E.length = V.length + 1 ∧ (5 < V.length → ∃ c0,
        centres E = tab V.length (fun i => c0 + i * ((high - low) / bins)) ∧
        ∀ k, 0 < k → k + 1 < V.length → V.getD k 0 = α * (c0 + k * ((high - low) / bins)) + β) := by
    intro g hg
    obtain ⟨i1, i2⟩ := hg2.group (g.1.zip g.2) (List.mem_map_of_mem hg)
    have hgl := hg1 g hg
    have m1 : (g.1.zip g.2).map Prod.fst = g.1 := List.map_fst_zip hgl.le
    have m2 : (g.1.zip g.2).map Prod.snd = g.2 := List.map_snd_zip hgl.ge
    have n1 : ∀ a ∈ g.1, a ≠ none := by
      intro a ha
      rw [← m1] at ha
      obtain ⟨p, hp, rfl⟩ := List.mem_map.1 ha
      have := i2 p hp
      simp at this
      exact this.1
    have n2 : ∀ a ∈ g.2, a ≠ none := by
      intro a ha
      rw [← m2] at ha
      obtain ⟨p, hp, rfl⟩ := List.mem_map.1 ha
      have := i2 p hp
      simp at this
      exact this.2
    obtain ⟨xs, ex, _⟩ := mapM_id_some g.1 n1
    obtain ⟨ys, ey, _⟩ := mapM_id_some g.2 n2
    have hxs : (xs.map some).Sublist rs' := by
      have h1 := (i1.sublist).map Prod.fst
      rw [m1, ex] at h1
      rwa [List.map_fst_zip hl'.le] at h1
    have hxl : xs.length = ys.length := by simpa [ex, ey] using hgl
    have hxpos : ∀ x ∈ xs, 0 < x := fun x hx => hrpos x (hxs.subset (List.mem_map_of_mem hx))
    have hxinc : xs.Pairwise (· < ·) := by
      have h1 : ((xs.map some).filterMap id).Sublist ((r0 :: rt).filterMap id) := (hxs.trans hsub).filterMap id
      rw [reduceOption_map_some] at h1
      exact hinc.sublist h1
    obtain ⟨c, hc⟩ := rawSegment_line (lg := lg) hlh hb hs xs ys hxl
      (by
        rw [List.pairwise_map]
        exact hxinc.imp_of_mem fun {a b} ha _ hab => hmono a b (hxpos a ha) hab)
      (by
        rintro ⟨x, y⟩ hp
        have h1 : (some x, some y) ∈ g.1.zip g.2 := by
          rw [ex, ey, List.zip_map]
          exact List.mem_map.2 ⟨(x, y), hp, rfl⟩
        have h2 := i1.subset h1
        rw [List.zip_map_right] at h2
        obtain ⟨⟨a, b⟩, h3, h4⟩ := List.mem_map.1 h2
        obtain ⟨h5, h6⟩ : a = some x ∧ nanIfNotPos b = some y := by simpa using h4
        have h7 : b = some y ∧ 0 < y := by
          rcases b with _ | b
          · simp [nanIfNotPos] at h6
          · by_cases hneg : b ≤ 0
            · simp [nanIfNotPos, hneg] at h6
            · have : b = y := by simpa [nanIfNotPos, hneg] using h6
              exact ⟨by rw [this], by rw [← this]; exact not_le.1 hneg⟩
        refine hlaw x y ?_ (hxpos x (List.of_mem_zip hp).1).ne' h7.2
        rw [h5, h7.1] at h3
        exact hzip _ h3)
    refine ⟨c, ?_⟩
    rw [show g = (xs.map some, ys.map some) from Prod.ext ex ey]
    exact hc
  obtain ⟨conv, e2, hconv⟩ := mapM_forall₂ _ _ gs hgroups
  have hgood : ∀ E V, some (E, V) ∈ conv → E.length = V.length + 1 ∧ (5 < V.length → ∃ c0,
        centres E = tab V.length (fun i => c0 + i * ((high - low) / bins)) ∧
        ∀ k, 0 < k → k + 1 < V.length → V.getD k 0 = α * (c0 + k * ((high - low) / bins)) + β) := by
    intro E V h
    obtain ⟨i, hi, e⟩ := List.mem_iff_getElem.1 h
    have := (List.forall₂_iff_get.1 hconv).2 i (by rw [hconv.length_eq]; exact hi) hi
    exact this E V (by simpa using e)
  set G := (conv.filterMap id).map fun c => ((centres c.1).map pw, c.2.map pw) with hG
  have hGm : ∀ g ∈ G, ∃ E V, some (E, V) ∈ conv ∧ g = ((centres E).map pw, V.map pw) := by
    intro g hg
    obtain ⟨⟨E, V⟩, hc, rfl⟩ := List.mem_map.1 hg
    obtain ⟨o, ho, rfl⟩ := List.mem_filterMap.1 hc
    exact ⟨E, V, by simp at *; assumption, rfl⟩
  have hcl : ∀ E : List ℚ, (centres E).length = E.length - 1 := by
    intro E
    simp [centres]
  obtain ⟨lds, e3, hf⟩ := C178_aligned_partial lg G
    (by
      intro g hg
      obtain ⟨E, V, hm, rfl⟩ := hGm g hg
      have := (hgood E V hm).1
      simp [hcl, this])
    (by
      intro g hg ρ hρ
      obtain ⟨E, V, hm, rfl⟩ := hGm g hg
      obtain ⟨v, _, rfl⟩ := List.mem_map.1 hρ
      exact hpos v)
  refine ⟨_, Eq.trans ?_ e3, ?_, ?_, ?_⟩
  · unfold rawProfile
    have : (r0 :: rt)[0]? = some r0 := rfl
    simp only [this, Option.bind_eq_bind, Option.bind_some]
    rw [← hrs', ← hrhos', e1, Option.bind_some, e2, Option.bind_some]
  · simp
  · simp [hf.length_eq]
  · intro s lr ld hs1 hs2
    simp only [List.getElem?_map] at hs1
    obtain ⟨g, hg, rfl⟩ := Option.map_eq_some_iff.1 hs1
    obtain ⟨hi, hgi⟩ := List.getElem?_eq_some_iff.1 hg
    obtain ⟨hj, hdj⟩ := List.getElem?_eq_some_iff.1 hs2
    obtain ⟨hd1, hd2⟩ := (List.forall₂_iff_get.1 hf).2 s hi hj
    simp only [List.get_eq_getElem] at hd1 hd2
    rw [hgi, hdj] at hd1
    rw [hgi, hdj] at hd2
    obtain ⟨hm1, hm2⟩ := List.mem_filter.1 (List.mem_of_getElem? hg)
    obtain ⟨E, V, hm, rfl⟩ := hGm g hm1
    obtain ⟨k1, k2⟩ := hgood E V hm
    have hc : (centres E).length = V.length := by rw [hcl, k1]; rfl
    have h5 : 5 < V.length := by simpa [hc] using hm2
    obtain ⟨c0, k3, k4⟩ := k2 h5
    have inv : ∀ l : List ℚ, (l.map pw).map lg = l := by
      intro l
      rw [List.map_map]
      conv_rhs => rw [← List.map_id l]
      exact List.map_congr_left fun x _ => hinv x
    simp only [inv] at hd1 ⊢
    simp only [List.length_map] at hd2
    rw [hc] at hd2 ⊢
    refine ⟨hd2, h5, ⟨c0, k3⟩, ?_⟩
    intro i hi3 hin
    obtain ⟨j, rfl⟩ : ∃ j, i = j + 2 := ⟨i - 2, by omega⟩
    obtain ⟨f, hf1, hf2⟩ := vectorDeriv4 V.length (by omega) (fun i => c0 + i * ((high - low) / bins)) (fun i => V.getD i 0)
    rw [← k3, ← eq_tab V, hd1] at hf1
    have hld : ld = tab V.length f := by simpa using hf1
    rw [hld, tab_getD _ (by omega), hf2 j (by omega), k4 j (by omega) (by omega), k4 (j + 1) (by omega) (by omega),
      k4 (j + 3) (by omega) (by omega), k4 (j + 4) (by omega) (by omega)]
    have hd : 0 < (high - low) / bins := div_pos (by linarith) (by exact_mod_cast hb)
    generalize (high - low) / bins = δ at hd
    push_cast
    rw [div_eq_iff (by ring_nf; linarith)]
    ring

theorem Runs.of_map {α β : Type} {nan : β → Bool} (f : α → β) {l : List α} {gs : List (List β)} (h : Runs nan (l.map f) gs) :
    ∃ hs, Runs (fun a => nan (f a)) l hs ∧ gs = hs.map (List.map f) := by
  generalize hm : l.map f = m at h
  induction h generalizing l with
  | nil =>
    rw [List.map_eq_nil_iff] at hm
    subst hm
    exact ⟨[], Runs.nil, rfl⟩
  | @skip b m gs hb _ ih =>
    obtain ⟨a, l', rfl, rfl, hm'⟩ := List.map_eq_cons_iff.1 hm
    obtain ⟨hs, h1, h2⟩ := ih hm'
    exact ⟨hs, Runs.skip hb h1, h2⟩
  | @run g m gs h1 h2 h3 _ ih =>
    obtain ⟨l1, l2, rfl, rfl, hm'⟩ := List.map_eq_append_iff.1 hm
    obtain ⟨hs, h4, h5⟩ := ih hm'
    refine ⟨l1 :: hs, Runs.run ?_ ?_ ?_ h4, by simp [h5]⟩
    · rintro rfl
      simp at h1
    · intro a ha
      exact h2 (f a) (List.mem_map_of_mem ha)
    · intro a ha
      refine h3 (f a) ?_
      rw [← hm', List.head?_map, Option.mem_def.1 ha]
      simp

theorem Runs.congr {α : Type} {p q : α → Bool} (h : ∀ a, p a = q a) {l : List α} {gs : List (List α)} (hr : Runs p l gs) :
    Runs q l gs := by
  rw [← funext h]
  exact hr

/-- C179: the segments of a profile are the runs of samples without NaN and with positive densities, each rebinned, in order,
as far as they have more than five bins. -/
theorem C179_segments (lg pw : ℚ → ℚ) (spline : List ℚ → List ℚ → ℚ → ℚ → ℚ) (low high : ℚ) (bins : Nat)
    (hlh : low < high) (hb : 0 < bins) (hmono : ∀ a b, 0 < a → a < b → lg a < lg b) (hpos : ∀ x, 0 < pw x)
    (hinv : ∀ x, lg (pw x) = x) (rs rhos : List F) (hl : rs.length = rhos.length) (h0 : rs ≠ [])
    (hrs : ∀ r, some r ∈ rs → 0 < r) (hinc : (rs.filterMap id).Pairwise (· < ·)) :
    ∃ (P : Prof) (runs : List (List (F × F))) (out : List (Option (List ℚ × List ℚ))),
      rawProfile lg pw (binEdges low high bins) spline rs rhos = some P ∧
      Runs (fun p : F × F => p.1.isNone || p.2.all fun ρ => decide (ρ ≤ 0)) (rs.zip rhos) runs ∧
      List.Forall₂ (fun g c => ∃ xs ys : List ℚ, g = (xs.zip ys).map (fun p => (some p.1, some p.2)) ∧
        xs.length = ys.length ∧ convert true (binEdges low high bins) spline (xs.map lg) (ys.map lg) = some c) runs out ∧
      P.lrs = ((out.filterMap id).filter fun c => 5 < c.2.length).map (fun c => centres c.1) ∧
      P.lrhos = ((out.filterMap id).filter fun c => 5 < c.2.length).map Prod.snd ∧
      P.rs = P.lrs.map (List.map pw) ∧ P.rhos = P.lrhos.map (List.map pw) := by
  have hr0 : ∃ r0, rs[0]? = some r0 ∧ r0 ≠ some 0 := by
    cases rs with
    | nil => simp at h0
    | cons a b =>
      refine ⟨a, rfl, ?_⟩
      rintro rfl
      exact lt_irrefl _ (hrs 0 (by simp))
  obtain ⟨r0, er0, hr0⟩ := hr0
  have hl' : rs.length = (rhos.map nanIfNotPos).length := by simpa using hl
  obtain ⟨gs, e1, hg1, hg2⟩ := C158_nan_split rs (rhos.map nanIfNotPos) hl' h0
  have hz : rs.zip (rhos.map nanIfNotPos) = (rs.zip rhos).map fun p => (p.1, nanIfNotPos p.2) := by
    rw [List.zip_map_right]
    rfl
  have hgroups : ∀ g ∈ gs, ∃ c, rawSegment lg (binEdges low high bins) spline g = some c ∧
      (∀ E V, c = some (E, V) → E.length = V.length + 1) ∧
      ∃ xs ys : List ℚ, g.1.zip g.2 = (xs.zip ys).map (fun p => (some p.1, some p.2)) ∧
        xs.length = ys.length ∧ convert true (binEdges low high bins) spline (xs.map lg) (ys.map lg) = some c := by
    intro g hg
    obtain ⟨i1, i2⟩ := hg2.group (g.1.zip g.2) (List.mem_map_of_mem hg)
    have hgl := hg1 g hg
    have m1 : (g.1.zip g.2).map Prod.fst = g.1 := List.map_fst_zip hgl.le
    have m2 : (g.1.zip g.2).map Prod.snd = g.2 := List.map_snd_zip hgl.ge
    have n1 : ∀ a ∈ g.1, a ≠ none := by
      intro a ha
      rw [← m1] at ha
      obtain ⟨p, hp, rfl⟩ := List.mem_map.1 ha
      have := i2 p hp
      simp at this
      exact this.1
    have n2 : ∀ a ∈ g.2, a ≠ none := by
      intro a ha
      rw [← m2] at ha
      obtain ⟨p, hp, rfl⟩ := List.mem_map.1 ha
      have := i2 p hp
      simp at this
      exact this.2
    obtain ⟨xs, ex, ex'⟩ := mapM_id_some g.1 n1
    obtain ⟨ys, ey, ey'⟩ := mapM_id_some g.2 n2
    have hxs : (xs.map some).Sublist rs := by
      have h1 := (i1.sublist).map Prod.fst
      rw [m1, ex] at h1
      rwa [List.map_fst_zip hl'.le] at h1
    have hxl : xs.length = ys.length := by simpa [ex, ey] using hgl
    have hxpos : ∀ x ∈ xs, 0 < x := fun x hx => hrs x (hxs.subset (List.mem_map_of_mem hx))
    have hxinc : xs.Pairwise (· < ·) := by
      have h1 : ((xs.map some).filterMap id).Sublist (rs.filterMap id) := hxs.filterMap id
      rw [reduceOption_map_some] at h1
      exact hinc.sublist h1
    have hxlg : (xs.map lg).Pairwise (· < ·) := by
      rw [List.pairwise_map]
      exact hxinc.imp_of_mem fun {a b} ha _ hab => hmono a b (hxpos a ha) hab
    have e0 : rawSegment lg (binEdges low high bins) spline g =
        convert true (binEdges low high bins) spline (xs.map lg) (ys.map lg) := by
      unfold rawSegment
      rw [ex', ey']; rfl
    have h2 : 2 ≤ (binEdges low high bins).length := by
      unfold binEdges
      simp
      omega
    obtain ⟨c1, c2⟩ := C160_convert true _ (binEdges_pairwise hlh hb) h2 spline (xs.map lg) (ys.map lg) (by simp [hxl]) hxlg
    have hzz : g.1.zip g.2 = (xs.zip ys).map (fun p => (some p.1, some p.2)) := by
      rw [ex, ey, List.zip_map]
      rfl
    rcases Nat.lt_or_ge 3 (inside (binEdges low high bins) (xs.map lg) (ys.map lg)).length with h | h
    · obtain ⟨x0, xl, E, V, e, _, _, hr⟩ := c2 h
      refine ⟨some (E, V), by rw [e0, e], ?_, xs, ys, hzz, hxl, e⟩
      rintro E' V' e'
      obtain ⟨rfl, rfl⟩ : E = E' ∧ V = V' := by simpa using e'
      exact (hr (Or.inl rfl)).len
    · exact ⟨none, by rw [e0, c1 h], by simp, xs, ys, hzz, hxl, c1 h⟩
  obtain ⟨conv, e2, hconv⟩ := mapM_forall₂ _ _ gs hgroups
  have hgood : ∀ E V, some (E, V) ∈ conv → E.length = V.length + 1 := by
    intro E V h
    obtain ⟨i, hi, e⟩ := List.mem_iff_getElem.1 h
    have := (List.forall₂_iff_get.1 hconv).2 i (by rw [hconv.length_eq]; exact hi) hi
    exact this.1 E V (by simpa using e)
  have hfm : ∀ c ∈ conv.filterMap id, c.1.length = c.2.length + 1 := by
    rintro ⟨E, V⟩ hc
    obtain ⟨o, ho, rfl⟩ := List.mem_filterMap.1 hc
    exact hgood E V (by simp at *; assumption)
  have hcl : ∀ E : List ℚ, (centres E).length = E.length - 1 := by
    intro E
    simp [centres]
  obtain ⟨lds, e3, hf⟩ := C178_aligned_partial lg ((conv.filterMap id).map fun c => ((centres c.1).map pw, c.2.map pw))
    (by
      intro g hg
      obtain ⟨c, hc, rfl⟩ := List.mem_map.1 hg
      simp [hcl, hfm c hc])
    (by
      intro g hg ρ hρ
      obtain ⟨c, hc, rfl⟩ := List.mem_map.1 hg
      obtain ⟨v, _, rfl⟩ := List.mem_map.1 hρ
      exact hpos v)
  have hfil : ((conv.filterMap id).map fun c => ((centres c.1).map pw, c.2.map pw)).filter (fun g => decide (5 < g.1.length)) =
      ((conv.filterMap id).filter fun c => decide (5 < c.2.length)).map fun c => ((centres c.1).map pw, c.2.map pw) := by
    rw [List.filter_map]
    congr 1
    refine List.filter_congr fun c hc => ?_
    simp [hcl, hfm c hc]
  have inv : ∀ l : List ℚ, (l.map pw).map lg = l := by
    intro l
    rw [List.map_map]
    conv_rhs => rw [← List.map_id l]
    exact List.map_congr_left fun x _ => hinv x
  obtain ⟨hs, hs1, hs2⟩ := Runs.of_map (fun p : F × F => (p.1, nanIfNotPos p.2)) (by rw [← hz]; exact hg2)
  have hs3 : gs.map (fun g => g.1.zip g.2) = hs := by
    rw [hs2]
    conv_rhs => rw [← List.map_id hs]
    refine List.map_congr_left fun h hh => ?_
    conv_rhs => rw [id, ← List.map_id h]
    refine List.map_congr_left fun p hp => ?_
    have := (hs1.group h hh).2 p hp
    simp only [decide_eq_false_iff_not, not_or] at this
    obtain ⟨a, b⟩ := p
    rcases b with _ | b
    · exact absurd rfl this.2
    · by_cases hb : b ≤ 0
      · exact absurd (by simp [nanIfNotPos, hb]) this.2
      · simp [nanIfNotPos, hb]
  refine ⟨_, hs, conv, Eq.trans ?_ e3, ?_, ?_, ?_, ?_, ?_, ?_⟩
  · unfold rawProfile
    simp only [er0, Option.bind_eq_bind, Option.bind_some, if_neg hr0]
    rw [e1, Option.bind_some, e2, Option.bind_some]
  · refine Runs.congr ?_ hs1
    rintro ⟨a, b⟩
    rcases a with _ | a
    · simp
    · rcases b with _ | b
      · simp [nanIfNotPos]
      · by_cases hb : b ≤ 0 <;> simp [nanIfNotPos, hb]
  · rw [← hs3, List.forall₂_map_left_iff]
    exact hconv.imp fun _ _ h => h.2
  · simp only [hfil, List.map_map]
    exact List.map_congr_left fun c _ => inv _
  · simp only [hfil, List.map_map]
    exact List.map_congr_left fun c _ => inv _
  · simp only [hfil, List.map_map]
    refine List.map_congr_left fun c _ => ?_
    simp only [Function.comp_apply, inv]
  · simp only [hfil, List.map_map]
    refine List.map_congr_left fun c _ => ?_
    simp only [Function.comp_apply, inv]


/-- An increasing function of positive numbers onto all numbers, in place of a logarithm. -/
def lgEx (x : ℚ) : ℚ := if 1 ≤ x then x - 1 else 1 - 1 / x

/-- Its inverse. -/
def pwEx (y : ℚ) : ℚ := if 0 ≤ y then y + 1 else 1 / (1 - y)

/-- The line through the first two points, in place of a spline. -/
def splineEx : List ℚ → List ℚ → ℚ → ℚ → ℚ
  | x :: x' :: _, y :: y' :: _, a, b => (y' - y) / (x' - x) * (b ^ 2 - a ^ 2) / 2 + (y - (y' - y) / (x' - x) * x) * (b - a)
  | _, _, _, _ => 0

theorem splineEx_line (α β : ℚ) : LineExact splineEx α β := by
  intro xs ys a b hl h3 hp h
  match xs, ys, hl, h3, hp, h with
  | x :: x' :: xs, y :: y' :: ys, _, _, hp, h =>
    have h1 : x < x' := (List.pairwise_cons.1 hp).1 x' (by simp)
    have e1 := h (x, y) (by simp)
    have e2 := h (x', y') (by simp)
    simp only at e1 e2
    have e3 : (y' - y) / (x' - x) = α := by
      rw [e1, e2, div_eq_iff (by linarith)]
      ring
    show (y' - y) / (x' - x) * (b ^ 2 - a ^ 2) / 2 + (y - (y' - y) / (x' - x) * x) * (b - a) = _
    rw [e3, e1]
    ring
  | [], _, _, h3, _, _ => simp at h3
  | [_], _, _, h3, _, _ => simp at h3
  | _ :: _ :: _, [], hl, _, _, _ => simp at hl
  | _ :: _ :: _, [_], hl, _, _, _ => simp at hl

theorem lgEx_mono (a b : ℚ) (ha : 0 < a) (hab : a < b) : lgEx a < lgEx b := by
  unfold lgEx
  split_ifs with h1 h2 h2
  · linarith
  · linarith
  · have : 1 < 1 / a := by rw [lt_div_iff₀ ha]; linarith
    linarith
  · have : 1 / b < 1 / a := one_div_lt_one_div_of_lt ha hab
    linarith

theorem pwEx_pos (x : ℚ) : 0 < pwEx x := by
  unfold pwEx
  split_ifs with h
  · linarith
  · exact one_div_pos.2 (by linarith)

theorem lgEx_pwEx (x : ℚ) : lgEx (pwEx x) = x := by
  unfold pwEx
  split_ifs with h
  · rw [lgEx, if_pos (by linarith)]; ring
  · have h1 : 0 < 1 - x := by linarith
    rw [lgEx, if_neg (by rw [not_le, div_lt_iff₀ h1]; linarith), one_div_one_div]
    ring

/-- Near the ends of a segment the slopes of a power law are not its exponent: the first and the last bin are averages over the
part with data, put at the centre of the bin. -/
theorem C179_counterexample :
    (rawProfile lgEx pwEx (binEdges 0 8 8) splineEx
      [some 0, some (3 / 2), some 2, some 3, some 4, some 5, some 6, some 7, some 8, some (17 / 2)]
      [some 9, some (3 / 2), some 2, some 3, some 4, some 5, some 6, some 7, some 8, some (17 / 2)]).map Prof.lderivs =
      some [[23 / 48, 15 / 16, 49 / 48, 1, 1, 49 / 48, 15 / 16, 23 / 48]] := by decide +kernel

/-- The hypotheses of C179 hold there. -/
example : ∃ P, rawProfile lgEx pwEx (binEdges 0 8 8) splineEx
      [some 0, some (3 / 2), some 2, some 3, some 4, some 5, some 6, some 7, some 8, some (17 / 2)]
      [some 9, some (3 / 2), some 2, some 3, some 4, some 5, some 6, some 7, some 8, some (17 / 2)] = some P := by
  obtain ⟨P, h, _⟩ := C179_power_law_partial lgEx pwEx splineEx 1 0 0 8 8 (by norm_num) (by norm_num) (splineEx_line 1 0)
    lgEx_mono pwEx_pos lgEx_pwEx
    [some 0, some (3 / 2), some 2, some 3, some 4, some 5, some 6, some 7, some 8, some (17 / 2)]
    [some 9, some (3 / 2), some 2, some 3, some 4, some 5, some 6, some 7, some 8, some (17 / 2)] rfl
    ⟨some 2, by simp, by simp⟩ (by simp)
    (by
      intro i r hi h
      have hm : some r ∈ [some (3 / 2 : ℚ), some 2, some 3, some 4, some 5, some 6, some 7, some 8, some (17 / 2)] := by
        obtain ⟨k, rfl⟩ : ∃ k, i = k + 1 := ⟨i - 1, by omega⟩
        exact List.mem_of_getElem? (i := k) (by simpa using h)
      simp at hm
      rcases hm with rfl | rfl | rfl | rfl | rfl | rfl | rfl | rfl | rfl <;> norm_num)
    (by norm_num [List.filterMap])
    (by
      intro r ρ h hr _
      simp at h
      have : ρ = r := by
        rcases h with h | h | h | h | h | h | h | h | h | h <;> first | exact absurd h.1 hr | rw [h.1, h.2]
      rw [this]; ring)
  exact ⟨P, h⟩

/-- Sixteen radii. -/
def radiiEx : List F := (List.range 16).map fun i : Nat => (some ((i : ℚ) + 3 / 2) : F)

/-- Densities for them, one of them 0. -/
def densEx : List F := (List.range 16).map fun i : Nat => if i = 8 then (some 0 : F) else some ((i : ℚ) + 3 / 2)

/-- A density of 0 in the middle: two segments, of eight and seven bins. -/
example : (rawProfile lgEx pwEx (binEdges 0 16 16) splineEx radiiEx
    densEx).map
      (fun P => (P.lrs, P.rs.map List.length)) =
    some ([tab 8 fun i => i + 1 / 2, tab 7 fun i => i + 19 / 2], [8, 7]) := by
  decide +kernel

example : ∃ (P : Prof) (runs : List (List (F × F))) (out : List (Option (List ℚ × List ℚ))), rawProfile lgEx pwEx (binEdges 0 16 16) splineEx radiiEx
    densEx = some P ∧
    P.lrs = ((out.filterMap id).filter fun c => 5 < c.2.length).map (fun c => centres c.1) ∧
    runs ≠ [] := by
  obtain ⟨P, runs, out, h1, h2, _, h4, _⟩ := C179_segments lgEx pwEx splineEx 0 16 16 (by norm_num) (by norm_num) lgEx_mono
    pwEx_pos lgEx_pwEx radiiEx
    densEx (by simp [radiiEx, densEx]) (by decide)
    (by
      intro r hr
      obtain ⟨i, _, h⟩ := List.mem_map.1 hr
      have : (i + 3 / 2 : ℚ) = r := by simpa using h
      rw [← this]; positivity)
    (by
      unfold radiiEx
      rw [List.filterMap_map]
      refine List.pairwise_filterMap.2 (List.pairwise_lt_range.imp ?_)
      intro a b hab x hx y hy
      have hx : (a + 3 / 2 : ℚ) = x := by simpa using hx
      have hy : (b + 3 / 2 : ℚ) = y := by simpa using hy
      have : (a : ℚ) < b := by exact_mod_cast hab
      linarith)
  refine ⟨P, runs, out, h1, h4, ?_⟩
  rintro rfl
  have hm : ((some (3 / 2), some (3 / 2)) : F × F) ∈ radiiEx.zip
      densEx := by decide +kernel
  have hall : ∀ (l : List (F × F)), Runs (fun p : F × F => p.1.isNone || p.2.all fun ρ => decide (ρ ≤ 0)) l [] →
      ∀ p ∈ l, (p.1.isNone || p.2.all fun ρ => decide (ρ ≤ 0)) = true := by
    intro l hl
    generalize hg : ([] : List (List (F × F))) = gs at hl
    induction hl with
    | nil => simp
    | skip h _ ih =>
      intro p hp
      rcases List.mem_cons.1 hp with rfl | hp
      · exact h
      · exact ih hg p hp
    | run => simp at hg
  have := hall _ h2 _ hm
  norm_num at this

end Verif.Py
