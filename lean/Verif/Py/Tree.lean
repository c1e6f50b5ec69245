import Verif.Py.TreeModel
import Mathlib.Data.List.GetD
import Mathlib.Algebra.Order.Ring.Rat
import Mathlib.Tactic.Linarith
import Mathlib.Tactic.Ring

/-!
# The tree of density peaks connects every node to its nearest peak
-/

set_option autoImplicit false

namespace Verif.Py

open Verif.Go

/-- `c` is the first of the values nearest to `p`. -/
def Nearest (p : ℚ) (maxes : List ℚ) (c : ℚ) : Prop :=
  ∃ l1 l2, maxes = l1 ++ c :: l2 ∧ (∀ a ∈ l1, |c - p| < |a - p|) ∧ ∀ a ∈ l2, |c - p| ≤ |a - p|

/-- `res` is the last of the values closer than `h` to `x`, if there is one. -/
def LastWithin (h x : ℚ) (maxes : List ℚ) (res : Option ℚ) : Prop :=
  (res = none ∧ ∀ m ∈ maxes, h ≤ |m - x|) ∨
    ∃ l1 m l2, maxes = l1 ++ m :: l2 ∧ |m - x| < h ∧ (∀ a ∈ l2, h ≤ |a - x|) ∧ res = some m

/-- What a node is connected to: the maximum nearest to that of its parent, if it is closer than `h` to it or the parent is
the root; otherwise the last one closer than `h` to the curve `x` of the level above. -/
def Link (h : ℚ) (top : Prop) (parent : Option ℚ) (x : ℚ) (maxes : List ℚ) (res : Option ℚ) : Prop :=
  (∃ p c, parent = some p ∧ Nearest p maxes c ∧ (|c - p| < h ∨ top) ∧ res = some c) ∨
    ((∀ p c, parent = some p → Nearest p maxes c → ¬ (|c - p| < h ∨ top)) ∧ LastWithin h x maxes res)

theorem nearest_unique {p : ℚ} {maxes : List ℚ} {c d : ℚ} (hc : Nearest p maxes c) (hd : Nearest p maxes d) : c = d := by
  obtain ⟨l1, l2, e, h1, h2⟩ := hc
  obtain ⟨k1, k2, e', h1', h2'⟩ := hd
  rw [e] at e'
  rcases List.append_eq_append_iff.mp e' with ⟨a, rfl, ea⟩ | ⟨a, rfl, ea⟩
  · cases a with
    | nil => simp at ea; exact ea.1
    | cons b a =>
      simp only [List.cons_append, List.cons.injEq] at ea
      obtain ⟨rfl, rfl⟩ := ea
      have := h1' c (by simp)
      have := h2 d (by simp)
      linarith
  · cases a with
    | nil => simp at ea; exact ea.1.symm
    | cons b a =>
      simp only [List.cons_append, List.cons.injEq] at ea
      obtain ⟨rfl, rfl⟩ := ea
      have := h1 d (by simp)
      have := h2' c (by simp)
      linarith

theorem foldl_nearest (x : ℚ) (l : List ℚ) : ∀ (pre : List ℚ) (b : ℚ) (mid : List ℚ), (∀ a ∈ pre, |b - x| < |a - x|) →
    (∀ a ∈ mid, |b - x| ≤ |a - x|) →
    Nearest x (pre ++ b :: mid ++ l) (l.foldl (fun b c => if |c - x| < |b - x| then c else b) b) := by
  induction l with
  | nil => intro pre b mid h1 h2; exact ⟨pre, mid, by simp, h1, h2⟩
  | cons c l ih =>
    intro pre b mid h1 h2
    simp only [List.foldl_cons]
    split_ifs with hlt
    · have := ih (pre ++ b :: mid) c [] (by
        intro a ha
        simp only [List.mem_append, List.mem_cons] at ha
        rcases ha with ha | rfl | ha
        · have := h1 a ha; linarith
        · exact hlt
        · have := h2 a ha; linarith) (by simp)
      simpa using this
    · have := ih pre b (mid ++ [c]) h1 (by
        intro a ha
        simp only [List.mem_append, List.mem_singleton] at ha
        rcases ha with ha | rfl
        · exact h2 a ha
        · exact not_lt.mp hlt)
      simpa using this

theorem nearest_spec {x : ℚ} {maxes : List ℚ} (hne : maxes ≠ []) : ∃ c, nearest x maxes = some c ∧ Nearest x maxes c := by
  cases maxes with
  | nil => exact absurd rfl hne
  | cons a l => exact ⟨_, rfl, by simpa using foldl_nearest x l [] a [] (by simp) (by simp)⟩

theorem lastNear_spec (h x : ℚ) (l : List ℚ) : ∀ cur, (lastNear h x cur l = cur ∧ ∀ m ∈ l, h ≤ |m - x|) ∨
    ∃ l1 m l2, l = l1 ++ m :: l2 ∧ |m - x| < h ∧ (∀ a ∈ l2, h ≤ |a - x|) ∧ lastNear h x cur l = some m := by
  induction l with
  | nil => intro cur; exact Or.inl ⟨rfl, by simp⟩
  | cons a l ih =>
    intro cur
    simp only [lastNear]
    rcases ih (if |a - x| < h then some a else cur) with ⟨e, hall⟩ | ⟨l1, m, l2, e, h1, h2, h3⟩
    · by_cases ha : |a - x| < h
      · rw [if_pos ha] at e ⊢
        exact Or.inr ⟨[], a, l, rfl, ha, hall, e⟩
      · rw [if_neg ha] at e ⊢
        refine Or.inl ⟨e, ?_⟩
        intro m hm
        rcases List.mem_cons.mp hm with rfl | hm
        · exact not_lt.mp ha
        · exact hall m hm
    · exact Or.inr ⟨a :: l1, m, l2, by rw [e]; rfl, h1, h2, h3⟩

theorem lastNear_within (h x : ℚ) (l : List ℚ) : LastWithin h x l (lastNear h x none l) := by
  rcases lastNear_spec h x l none with ⟨e, hall⟩ | ⟨l1, m, l2, e, h1, h2, h3⟩
  · exact Or.inl ⟨e, hall⟩
  · exact Or.inr ⟨l1, m, l2, e, h1, h2, h3⟩

variable {h : ℚ} {spline : List ℚ → Nat → ℚ} {split : Nat} {conn : List (List (Option ℚ))} {prev : List (Option ℚ)}
  {maxes : List (List ℚ)}

theorem connectTurn_spec {rs : List ℚ} (hrs : getConnMaxes conn split = some rs) {node : Nat} {curr : List (Option ℚ)}
    (hn : node < maxes.length) (hm : maxes.getD node [] ≠ []) (hp : node / 2 < prev.length) (hc : node < curr.length)
    (hcur : curr.getD node none = none) :
    ∃ res, connectTurn h spline split conn prev maxes node curr = some (curr.set node res) ∧
      Link h (split = 0) (prev.getD (node / 2) none) (spline rs node) (maxes.getD node []) res := by
  have e1 : maxes[node]? = some (maxes.getD node []) := by
    rw [List.getElem?_eq_getElem hn, List.getD_eq_getElem _ _ hn]
  have e2 : prev[node / 2]? = some (prev.getD (node / 2) none) := by
    rw [List.getElem?_eq_getElem hp, List.getD_eq_getElem _ _ hp]
  have e3 : rd curr (node : Int) = some none := by
    rw [rd_natCast, List.getElem?_eq_getElem hc, ← List.getD_eq_getElem _ none hc, hcur]
  unfold connectTurn
  rw [e1, e2]
  simp only [Option.bind_eq_bind, Option.bind_some]
  cases hpm : prev.getD (node / 2) none with
  | none =>
    refine ⟨lastNear h (spline rs node) none (maxes.getD node []), ?_, Or.inr ⟨by simp, lastNear_within _ _ _⟩⟩
    simp only [Option.bind_some, hrs, e3]
    exact wr_natCast hc
  | some p =>
    obtain ⟨c, ec, hnc⟩ := nearest_spec (x := p) hm
    simp only [ec, Option.map_some, Option.bind_some]
    by_cases hcond : |c - p| < h ∨ split = 0
    · rw [if_pos hcond]
      exact ⟨some c, wr_natCast hc, Or.inl ⟨p, c, rfl, hnc, hcond, rfl⟩⟩
    · rw [if_neg hcond]
      refine ⟨lastNear h (spline rs node) none (maxes.getD node []), ?_, Or.inr ⟨?_, lastNear_within _ _ _⟩⟩
      · simp only [hrs, e3, Option.bind_some]
        exact wr_natCast hc
      · intro p' c' hp' hc'
        obtain rfl := Option.some.inj hp'
        rw [nearest_unique hc' hnc]; exact hcond

theorem connectFold_spec {rs : List ℚ} (hrs : getConnMaxes conn split = some rs) (hm : ∀ i, i < maxes.length → maxes.getD i [] ≠ [])
    (hlen : maxes.length = prev.length * 2) : ∀ k, k ≤ maxes.length →
    ∃ curr, (List.range k).foldlM (fun curr node => connectTurn h spline split conn prev maxes node curr)
        (List.replicate (prev.length * 2) none) = some curr ∧ curr.length = prev.length * 2 ∧
      (∀ i, i < k → Link h (split = 0) (prev.getD (i / 2) none) (spline rs i) (maxes.getD i []) (curr.getD i none)) ∧
      ∀ i, k ≤ i → curr.getD i none = none := by
  intro k
  induction k with
  | zero =>
    intro _
    refine ⟨_, rfl, by simp, by simp, ?_⟩
    intro i _
    rw [List.getD_eq_getElem?_getD, List.getElem?_replicate]
    split_ifs <;> rfl
  | succ k ih =>
    intro hk
    obtain ⟨curr, e, hl, hlink, hnone⟩ := ih (by omega)
    rw [List.range_succ, List.foldlM_append, e]
    simp only [Option.bind_eq_bind, Option.bind_some, List.foldlM_cons, List.foldlM_nil]
    obtain ⟨res, er, hr⟩ := connectTurn_spec (h := h) (spline := spline) hrs (node := k) (by omega) (hm k (by omega))
      (prev := prev) (by omega) (curr := curr) (by omega) (hnone k le_rfl)
    rw [er]
    refine ⟨_, rfl, by simpa using hl, ?_, ?_⟩
    · intro i hi
      by_cases hik : k = i
      · subst hik
        rw [List.getD_eq_getElem (curr.set k res) none (by simp; omega), List.getElem_set_self]; exact hr
      · have : (curr.set k res).getD i none = curr.getD i none := by
          simp [List.getD_eq_getElem?_getD, List.getElem?_set, hik]
        rw [this]; exact hlink i (by omega)
    · intro i hi
      rw [List.getD_eq_getElem?_getD, List.getElem?_set, if_neg (by omega), ← List.getD_eq_getElem?_getD]
      exact hnone i (by omega)

/-- Entry `i` of level `l` of the connected tree. -/
def connAt (conn : List (List (Option ℚ))) (l i : Nat) : Option ℚ := (conn.getD l []).getD i none

/-- The maxima of node `i` of level `l`. -/
def maxesAt (tree : List (List (List ℚ))) (l i : Nat) : List ℚ := (tree.getD l []).getD i []

/-- Level `l` has `2^l` nodes, and all nodes have maxima. -/
structure TreeOk (tree : List (List (List ℚ))) : Prop where
  pos : 0 < tree.length
  width : ∀ l, l < tree.length → (tree.getD l []).length = 2 ^ l
  maxes : ∀ l, l < tree.length → ∀ i, i < 2 ^ l → maxesAt tree l i ≠ []

/-- `rs` are the maxima of level `l`, or those of the nearest ancestor that is connected. -/
def Finest (conn : List (List (Option ℚ))) (l : Nat) (rs : List ℚ) : Prop :=
  rs.length = 2 ^ l ∧ ∀ i, i < 2 ^ l → ∃ j, j ≤ l ∧ connAt conn (l - j) (i / 2 ^ j) = some (rs.getD i 0) ∧
    ∀ k, k < j → connAt conn (l - k) (i / 2 ^ k) = none

/-- The connected tree has `n` levels, its root is the first maximum, and every node is linked. -/
structure Connected (h : ℚ) (spline : Nat → List ℚ → Nat → ℚ) (tree : List (List (List ℚ)))
    (conn : List (List (Option ℚ))) (n : Nat) : Prop where
  len : conn.length = n
  width : ∀ l, l < n → (conn.getD l []).length = 2 ^ l
  root : connAt conn 0 0 = (maxesAt tree 0 0)[0]?
  link : ∀ l, l + 1 < n → ∃ rs, Finest conn l rs ∧ ∀ i, i < 2 ^ (l + 1) →
    Link h (l = 0) (connAt conn l (i / 2)) (spline l rs i) (maxesAt tree (l + 1) i) (connAt conn (l + 1) i)

theorem finestFrom_spec {conn : List (List (Option ℚ))} (hw : ∀ l, l < conn.length → (conn.getD l []).length = 2 ^ l)
    (hroot : connAt conn 0 0 ≠ none) {idx : Nat} : ∀ (l i : Nat), l < conn.length → idx < 2 ^ (l + i) →
    ∃ r, finestFrom conn idx l i = some r ∧ ∃ j, j ≤ l ∧ connAt conn (l - j) (idx / 2 ^ (i + j)) = some r ∧
      ∀ k, k < j → connAt conn (l - k) (idx / 2 ^ (i + k)) = none := by
  intro l
  induction l with
  | zero =>
    intro i hl hi
    have hz : idx / 2 ^ i = 0 := Nat.div_eq_of_lt (by simpa using hi)
    obtain ⟨r, er⟩ := Option.ne_none_iff_exists'.mp hroot
    refine ⟨r, ?_, 0, le_rfl, by simpa [hz] using er, by simp⟩
    unfold finestFrom
    have e1 : conn[0]? = some (conn.getD 0 []) := by rw [List.getElem?_eq_getElem hl, List.getD_eq_getElem _ _ hl]
    have h1 : 0 < (conn.getD 0 []).length := by rw [hw 0 hl]; norm_num
    have e2 : (conn.getD 0 [])[0]? = some (some r) := by
      rw [List.getElem?_eq_getElem h1, ← List.getD_eq_getElem _ none h1]; exact congrArg some er
    rw [e1]; simp only [hz, e2]
  | succ l ih =>
    intro i hl hi
    have hd : idx / 2 ^ i < 2 ^ (l + 1) := by
      rw [Nat.div_lt_iff_lt_mul (by positivity), ← pow_add]; exact hi
    have e1 : conn[l + 1]? = some (conn.getD (l + 1) []) := by
      rw [List.getElem?_eq_getElem hl, List.getD_eq_getElem _ _ hl]
    have h1 : idx / 2 ^ i < (conn.getD (l + 1) []).length := by rw [hw _ hl]; exact hd
    have e2 : (conn.getD (l + 1) [])[idx / 2 ^ i]? = some (connAt conn (l + 1) (idx / 2 ^ i)) := by
      rw [List.getElem?_eq_getElem h1, ← List.getD_eq_getElem _ none h1]; rfl
    unfold finestFrom
    rw [e1]; simp only [e2]
    cases hv : connAt conn (l + 1) (idx / 2 ^ i) with
    | some r => exact ⟨r, rfl, 0, by omega, by simpa using hv, by simp⟩
    | none =>
      obtain ⟨r, er, j, hj, hjr, hk⟩ := ih (i + 1) (by omega) (by rw [show l + (i + 1) = l + 1 + i by omega]; exact hi)
      refine ⟨r, er, j + 1, by omega, ?_, ?_⟩
      · rw [show l + 1 - (j + 1) = l - j by omega, show i + (j + 1) = i + 1 + j by omega]; exact hjr
      · intro k hkj
        cases k with
        | zero => simpa using hv
        | succ k =>
          rw [show l + 1 - (k + 1) = l - k by omega, show i + (k + 1) = i + 1 + k by omega]
          exact hk k (by omega)

theorem mapM_range {α : Type} (f : Nat → Option α) (g : Nat → α) : ∀ n, (∀ i, i < n → f i = some (g i)) →
    (List.range n).mapM f = some ((List.range n).map g) := by
  intro n
  induction n with
  | zero => intro _; rfl
  | succ n ih =>
    intro hf
    rw [List.range_succ, List.mapM_append, ih fun i hi => hf i (by omega)]
    simp [hf n (by omega)]

theorem getConnMaxes_spec {conn : List (List (Option ℚ))} (hw : ∀ l, l < conn.length → (conn.getD l []).length = 2 ^ l)
    (hroot : connAt conn 0 0 ≠ none) {l : Nat} (hl : l < conn.length) :
    ∃ rs, getConnMaxes conn l = some rs ∧ Finest conn l rs := by
  have hex : ∀ i, ∃ r, i < 2 ^ l → finestFrom conn i l 0 = some r ∧ ∃ j, j ≤ l ∧ connAt conn (l - j) (i / 2 ^ j) = some r ∧
      ∀ k, k < j → connAt conn (l - k) (i / 2 ^ k) = none := by
    intro i
    by_cases hi : i < 2 ^ l
    · obtain ⟨r, e, j, hj, h1, h2⟩ := finestFrom_spec hw hroot l 0 hl (idx := i) (by simpa using hi)
      exact ⟨r, fun _ => ⟨e, j, hj, by simpa using h1, by simpa using h2⟩⟩
    · exact ⟨0, fun h => absurd h hi⟩
  choose g hg using hex
  refine ⟨(List.range (2 ^ l)).map g, ?_, by simp, ?_⟩
  · unfold getConnMaxes
    rw [List.getElem?_eq_getElem hl]
    simp only [Option.bind_eq_bind, Option.bind_some]
    have hlen : conn[l].length = 2 ^ l := by rw [← hw l hl, List.getD_eq_getElem _ _ hl]
    rw [hlen]
    exact mapM_range _ g _ fun i hi => (hg i hi).1
  · intro i hi
    rw [List.getD_eq_getElem _ _ (by simpa using hi)]
    simpa using (hg i hi).2

theorem connAt_append {conn : List (List (Option ℚ))} {row : List (Option ℚ)} {l : Nat} (hl : l < conn.length) (i : Nat) :
    connAt (conn ++ [row]) l i = connAt conn l i := by
  unfold connAt
  rw [List.getD_append _ _ _ _ hl]

theorem Finest.append {conn : List (List (Option ℚ))} {row : List (Option ℚ)} {l : Nat} (hl : l < conn.length) {rs : List ℚ}
    (hf : Finest conn l rs) : Finest (conn ++ [row]) l rs := by
  refine ⟨hf.1, fun i hi => ?_⟩
  obtain ⟨j, hj, h1, h2⟩ := hf.2 i hi
  exact ⟨j, hj, by rw [connAt_append (by omega)]; exact h1, fun k hk => by rw [connAt_append (by omega)]; exact h2 k hk⟩

theorem connectRows_spec {h : ℚ} {spline : Nat → List ℚ → Nat → ℚ} {tree : List (List (List ℚ))} (ht : TreeOk tree) :
    ∀ (rest : List (List (List ℚ))) (split : Nat) (conn : List (List (Option ℚ))), tree.drop (split + 1) = rest →
    split < tree.length → Connected h spline tree conn (split + 1) →
    ∃ out, connectRows h spline split rest conn = some out ∧ Connected h spline tree out tree.length := by
  intro rest
  induction rest with
  | nil =>
    intro split conn hd hs hc
    have : tree.length = split + 1 := by
      have := congrArg List.length hd; simp at this; omega
    exact ⟨conn, rfl, this ▸ hc⟩
  | cons maxes rest ih =>
    intro split conn hd hs hc
    have hs1 : split + 1 < tree.length := by
      have := congrArg List.length hd; simp at this; omega
    have hmx : tree.getD (split + 1) [] = maxes := by
      rw [List.getD_eq_getElem _ _ hs1]
      rw [List.drop_eq_getElem_cons hs1] at hd
      exact (List.cons.inj hd).1
    have hrest : tree.drop (split + 1 + 1) = rest := by
      rw [List.drop_eq_getElem_cons hs1] at hd
      exact (List.cons.inj hd).2
    have hml : maxes.length = 2 ^ (split + 1) := by rw [← hmx]; exact ht.width _ hs1
    have hroot : connAt conn 0 0 ≠ none := by
      rw [hc.root]
      have := ht.maxes 0 ht.pos 0 (by norm_num)
      intro hn
      exact this (by simpa using hn)
    obtain ⟨rs, ers, hfin⟩ := getConnMaxes_spec (conn := conn) (by rw [hc.len]; exact hc.width) hroot (l := split)
      (by rw [hc.len]; omega)
    have hsl : split < conn.length := by rw [hc.len]; omega
    have hprev : conn.getLast? = some (conn.getD split []) := by
      rw [List.getLast?_eq_getElem?, hc.len, Nat.add_sub_cancel, List.getElem?_eq_getElem hsl, List.getD_eq_getElem _ _ hsl]
    have hpl : (conn.getD split []).length = 2 ^ split := hc.width _ (by omega)
    obtain ⟨curr, ecurr, hcl, hlink, -⟩ := connectFold_spec (h := h) (spline := spline split) (prev := conn.getD split [])
      (maxes := maxes) ers (by
        intro i hi
        have := ht.maxes _ hs1 i (by rw [← hml]; exact hi)
        unfold maxesAt at this
        rwa [hmx] at this) (by rw [hpl, hml]; ring) maxes.length le_rfl
    have hconn' : Connected h spline tree (conn ++ [curr]) (split + 1 + 1) := by
      refine ⟨by simp [hc.len], ?_, ?_, ?_⟩
      · intro l hl
        rcases Nat.lt_or_ge l (split + 1) with hlt | hge
        · rw [List.getD_append _ _ _ _ (by rw [hc.len]; exact hlt)]; exact hc.width l hlt
        · have : l = split + 1 := by omega
          subst this
          rw [List.getD_append_right _ _ _ _ (by rw [hc.len]), hc.len]
          simp only [Nat.sub_self, List.getD_cons_zero, hcl, hpl]; ring
      · rw [connAt_append (by rw [hc.len]; omega)]; exact hc.root
      · intro l hl
        rcases Nat.lt_or_ge (l + 1) (split + 1) with hlt | hge
        · obtain ⟨rs', hf', hlk⟩ := hc.link l hlt
          refine ⟨rs', hf'.append (by rw [hc.len]; omega), fun i hi => ?_⟩
          rw [connAt_append (by rw [hc.len]; omega), connAt_append (by rw [hc.len]; omega)]
          exact hlk i hi
        · have : l = split := by omega
          subst this
          refine ⟨rs, hfin.append hsl, fun i hi => ?_⟩
          have := hlink i (by rw [hml]; exact hi)
          rw [connAt_append hsl]
          have e1 : connAt (conn ++ [curr]) (l + 1) i = curr.getD i none := by
            unfold connAt
            rw [List.getD_append_right _ _ _ _ (by rw [hc.len]), hc.len]
            simp
          rw [e1]
          unfold maxesAt
          rw [hmx]
          exact this
    obtain ⟨out, eo, ho⟩ := ih (split + 1) (conn ++ [curr]) hrest hs1 hconn'
    refine ⟨out, ?_, ho⟩
    simp only [connectRows, connectRow, hprev, Option.bind_eq_bind, Option.bind_some, ecurr]
    exact eo

/-- Property C169: when every node has a maximum, the tree is connected without an exception. The root is connected to the
first maximum of all points, and every other node to the maximum nearest to its parent's if that is closer than `h` (for the
two nodes below the root: always), otherwise to the last one that is closer than `h` to the spline through the level above,
otherwise to none. -/
theorem C169_connect (h : ℚ) (spline : Nat → List ℚ → Nat → ℚ) {tree : List (List (List ℚ))} (ht : TreeOk tree) :
    ∃ conn, connectMaxes h spline tree = some conn ∧ Connected h spline tree conn tree.length := by
  have h0 := ht.pos
  have hw := ht.width 0 h0
  have hm := ht.maxes 0 h0 0 (by norm_num)
  have e0 : tree[0]? = some (tree.getD 0 []) := by rw [List.getElem?_eq_getElem h0, List.getD_eq_getElem _ _ h0]
  have hw0 : 0 < (tree.getD 0 []).length := by rw [hw]; norm_num
  have e1 : (tree.getD 0 [])[0]? = some (maxesAt tree 0 0) := by
    rw [List.getElem?_eq_getElem hw0]; unfold maxesAt; rw [List.getD_eq_getElem _ _ hw0]
  obtain ⟨r, l, er⟩ := List.exists_cons_of_ne_nil hm
  have hstart : Connected h spline tree [[some r]] (0 + 1) := by
    refine ⟨rfl, ?_, ?_, ?_⟩
    · intro l hl; obtain rfl : l = 0 := by omega
      rfl
    · rw [er]; rfl
    · intro l hl; omega
  obtain ⟨out, eo, ho⟩ := connectRows_spec ht tree.tail 0 [[some r]] (by simp) h0 hstart
  refine ⟨out, ?_, ho⟩
  unfold connectMaxes
  rw [e0]; simp only [Option.bind_eq_bind, Option.bind_some, e1, er]
  simpa using eo

/-- Property C169: in a connected tree `get_conn_maxes` never raises ("Impossible"): for each node it gives the maximum of
the node, or of its nearest ancestor that has one. -/
theorem C169_finest {h : ℚ} {spline : Nat → List ℚ → Nat → ℚ} {tree : List (List (List ℚ))} (ht : TreeOk tree)
    {conn : List (List (Option ℚ))} (hc : connectMaxes h spline tree = some conn) {level : Nat} (hl : level < tree.length) :
    ∃ rs, getConnMaxes conn level = some rs ∧ Finest conn level rs := by
  obtain ⟨c, e, hcon⟩ := C169_connect h spline ht
  rw [hc] at e
  obtain rfl := Option.some.inj e
  refine getConnMaxes_spec (by rw [hcon.len]; exact hcon.width) ?_ (by rw [hcon.len]; exact hl)
  rw [hcon.root]
  have := ht.maxes 0 ht.pos 0 (by norm_num)
  intro hn
  exact this (by simpa using hn)

/-- Property C169: what a node is connected to is always one of its own maxima. -/
theorem C169_own {h : ℚ} {top : Prop} {parent : Option ℚ} {x : ℚ} {maxes : List ℚ} {r : ℚ}
    (hl : Link h top parent x maxes (some r)) : r ∈ maxes := by
  rcases hl with ⟨p, c, -, ⟨l1, l2, e, -⟩, -, er⟩ | ⟨-, ⟨hn, -⟩ | ⟨l1, m, l2, e, -, -, er⟩⟩
  · rw [Option.some.inj er, e]; simp
  · exact absurd hn (by simp)
  · rw [Option.some.inj er, e]; simp

/-- A tree of three levels; the last node is connected by the spline. -/
def exTree : List (List (List ℚ)) := [[[4, 7]], [[5, 2], [9]], [[3, 6], [1], [9, 8], [4]]]

example : TreeOk exTree := by
  have h1 : ∀ l, l < 3 → (exTree.getD l []).length = 2 ^ l := by decide +kernel
  have h2 : ∀ l, l < 3 → ∀ i, i < 2 ^ l → maxesAt exTree l i ≠ [] := by decide +kernel
  exact ⟨by decide, h1, h2⟩

example : connectMaxes 2 (fun _ rs i => rs.getD (i / 2) 0 / 2) exTree =
    some [[some 4], [some 5, some 9], [some 6, some 1, some 9, some 4]] := by decide +kernel
example : getConnMaxes [[some 4], [some 5, none], [none, some 1, none, some 8]] 2 = some [5, 1, 4, 8] := by decide +kernel

/-- Property C169 is false when a node has no maximum: the test of line 82 looks at the wrong list, and the first such node
below the root makes the whole tree raise instead of being left unconnected. -/
theorem C169_counterexample (h : ℚ) (spline : Nat → List ℚ → Nat → ℚ) (r : ℚ) (root : List ℚ) (rest : List (List (List ℚ)))
    (other : List ℚ) : connectMaxes h spline ([r :: root] :: [[], other] :: rest) = none := by
  simp [connectMaxes, connectRows, connectRow, connectTurn, nearest, List.range_succ]

/-- Without a maximum for all points together the first step already raises. -/
theorem C169_root_counterexample (h : ℚ) (spline : Nat → List ℚ → Nat → ℚ) (rest : List (List (List ℚ))) :
    connectMaxes h spline ([[]] :: rest) = none := by
  simp [connectMaxes]

/-- `argmaxes`: exactly the positions inside the array whose value is larger than those of both neighbours, in order. -/
theorem C169_argmaxes (xs : List ℚ) : (argmaxes xs).Pairwise (· < ·) ∧ ∀ i, i ∈ argmaxes xs ↔
    ∃ a b c, 0 < i ∧ xs[i - 1]? = some a ∧ xs[i]? = some b ∧ xs[i + 1]? = some c ∧ a < b ∧ c < b := by
  refine ⟨List.Pairwise.filter _ (List.pairwise_lt_range' ..), fun i => ?_⟩
  simp only [argmaxes, List.mem_filter, List.mem_range'_1, Bool.and_eq_true, decide_eq_true_eq]
  constructor
  · rintro ⟨⟨h1, h2⟩, h3, h4⟩
    refine ⟨xs.getD (i - 1) 0, xs.getD i 0, xs.getD (i + 1) 0, by omega, ?_, ?_, ?_, h4, h3⟩
    all_goals rw [List.getElem?_eq_getElem (by omega), List.getD_eq_getElem _ _ (by omega)]
  · rintro ⟨a, b, c, h0, ea, eb, ec, h1, h2⟩
    obtain ⟨hlt, -⟩ := List.getElem?_eq_some_iff.mp ec
    simp only [List.getD_eq_getElem?_getD, ea, eb, ec, Option.getD_some]
    exact ⟨⟨by omega, by omega⟩, h2, h1⟩

example : argmaxes [1, 3, 2, 2, 5, 4, 9] = [1, 4] := by decide +kernel

end Verif.Py
