import Verif.Rand.Sobol
import Verif.Rand.Lemmas2
import Mathlib.Data.Fintype.Card
import Mathlib.Data.Fintype.EquivFin
import Mathlib.Tactic.NormNum

/-!
# Properties C06–C12 of `/repo/math/rand`
-/

namespace Verif.Rand

open Verif.Go

/-! ### C06 -/

/-- C06: for every seed and every number `n` of draws, all draws succeed and are in `[0, 1)`; allowing
`Next` any larger number of redraws gives the same state and value. -/
theorem C06_xorshift_range (seed : BitVec 64) (n : Nat) :
    ∃ g vs, draws Xor.next n (Xor.init seed) = some (g, vs) ∧ vs.length = n ∧
      (∀ v ∈ vs, 0 ≤ v ∧ v < 1) ∧
      ∃ g' v, (∀ k, Xor.nextFuel (4 + k) g = some (g', v)) ∧ 0 ≤ v ∧ v < 1 := by
  obtain ⟨g, vs, e, hg, hv⟩ := Xor.draws_isSome n _ (Xor.init_nonzero seed)
  obtain ⟨g', v, e', _, h1⟩ := Xor.next_isSome hg
  exact ⟨g, vs, e, draws_length _ _ _ _ _ e, hv, g', v,
    fun k => Xor.nextFuel_mono 4 k g _ e', h1⟩

/-- The redraw in `Next` is not dead code: some non-zero state does redraw. -/
example : ∃ g : Xor, g.step.value = 1 ∧ Xor.nextFuel 1 g = none ∧ (Xor.next g).isSome := by
  refine ⟨⟨0, 0, 5, 7⟩, ?_⟩
  decide +kernel

example : (draws Xor.next 3 (Xor.init 42)).isSome = true := by decide +kernel

/-! ### C07 -/

/-- C07 for Xorshift: on every state reached from a seed by any number of draws, filling a slice gives
the same values and final state as single draws, with any larger bound on the number of iterations. -/
theorem C07_xorshift_block (seed : BitVec 64) (n : Nat) (target : List ℚ) :
    ∃ g vs, draws Xor.next n (Xor.init seed) = some (g, vs) ∧
      ∃ g' ws, draws Xor.next target.length g = some (g', ws) ∧
        g.nextSequence target = some (g', ws) ∧
        ∀ k, Xor.seqLoop (4 * target.length + k) 0 g target = some (g', ws) := by
  obtain ⟨g, vs, e, hg, _⟩ := Xor.draws_isSome n _ (Xor.init_nonzero seed)
  obtain ⟨g', ws, e', _, _⟩ := Xor.draws_isSome target.length g hg
  have h := Xor.seqLoop_draws target.length 0 g g' target ws (by simp) hg e'
  simp only [List.take_zero, List.nil_append] at h
  exact ⟨g, vs, e, g', ws, e', h, fun k => Xor.seqLoop_mono _ k _ _ _ _ h⟩

example : ((Xor.init 7).nextSequence [0, 0, 0]).isSome = true := by decide +kernel

/-- C07 for Tausworthe: in every state (panics included), filling a slice equals single draws. -/
theorem C07_tausworthe_block (g : Taus) (target : List ℚ) :
    g.nextSequence target = draws Taus.next target.length g := by
  have := Taus.seq_draws target.length 0 g target (by simp)
  unfold Taus.nextSequence
  simp only [Nat.cast_zero, List.take_zero, List.nil_append] at this
  rw [this]
  cases draws Taus.next target.length g <;> rfl

example : draws Taus.next 2 ⟨[1/2, 1/4, 1/8], 0, 1, 2⟩ =
    some (⟨[1/8, 1/4, 7/8], 1, 2, 0⟩, [1/8, 7/8]) := by decide +kernel

/-- A request on a generator: a single draw or a block of a given length. -/
inductive Req where
  | single
  | block (n : Nat)

/-- Number of values requested. -/
def Req.size : Req → Nat
  | .single => 1
  | .block n => n

/-- Serving a list of requests with the two entry points of a backend. -/
def serve {S : Type} (next : S → Option (S × ℚ)) (seq : S → List ℚ → Option (S × List ℚ)) :
    List Req → S → Option (S × List ℚ)
  | [], s => some (s, [])
  | .single :: rs, s => do
    let (s, v) ← next s
    let (s, vs) ← serve next seq rs s
    some (s, v :: vs)
  | .block n :: rs, s => do
    let (s, ws) ← seq s (List.replicate n 0)
    let (s, vs) ← serve next seq rs s
    some (s, ws ++ vs)

theorem serve_eq_draws {S : Type} (next : S → Option (S × ℚ))
    (seq : S → List ℚ → Option (S × List ℚ)) (P : S → Prop)
    (hP : ∀ s, P s → ∃ s' v, next s = some (s', v) ∧ P s')
    (hseq : ∀ s t, P s → seq s t = draws next t.length s) :
    ∀ (rs : List Req) (s : S), P s →
      serve next seq rs s = draws next (rs.map Req.size).sum s := by
  have hD : ∀ n s, P s → ∃ s' vs, draws next n s = some (s', vs) ∧ P s' := by
    intro n
    induction n with
    | zero => intro s h; exact ⟨s, [], rfl, h⟩
    | succ n ih =>
      intro s h
      obtain ⟨s1, v, e1, p1⟩ := hP s h
      obtain ⟨s2, vs, e2, p2⟩ := ih s1 p1
      exact ⟨s2, v :: vs, by simp [draws, e1, e2], p2⟩
  intro rs
  induction rs with
  | nil => intro s _; rfl
  | cons r rs ih =>
    intro s hs
    cases r with
    | single =>
      obtain ⟨s1, v, e1, p1⟩ := hP s hs
      have : ((Req.single :: rs).map Req.size).sum = (rs.map Req.size).sum + 1 := by
        simp [Req.size, Nat.add_comm]
      rw [this]
      simp [serve, draws, e1, ih s1 p1]
    | block n =>
      obtain ⟨s1, vs, e1, p1⟩ := hD n s hs
      have : ((Req.block n :: rs).map Req.size).sum = n + (rs.map Req.size).sum := by
        simp [Req.size]
      rw [this, draws_add]
      simp only [serve, hseq s _ hs, List.length_replicate, e1, bind, Option.bind_some, ih s1 p1]
      cases draws next (rs.map Req.size).sum s1 <;> rfl

/-- C07: any mix of block and single Xorshift draws reads the same stream. -/
theorem C07_xorshift_mix (seed : BitVec 64) (rs rs' : List Req)
    (h : (rs.map Req.size).sum = (rs'.map Req.size).sum) :
    serve Xor.next Xor.nextSequence rs (Xor.init seed) =
      serve Xor.next Xor.nextSequence rs' (Xor.init seed) ∧
    (serve Xor.next Xor.nextSequence rs (Xor.init seed)).isSome := by
  have key := serve_eq_draws Xor.next Xor.nextSequence (fun g => ¬ g.Zero)
    (fun s hs => by obtain ⟨g', v, e, p, _⟩ := Xor.next_isSome hs; exact ⟨g', v, e, p⟩)
    (fun s t hs => by
      obtain ⟨g', ws, e', _, _⟩ := Xor.draws_isSome t.length s hs
      have h := Xor.seqLoop_draws t.length 0 s g' t ws (by simp) hs e'
      simp only [List.take_zero, List.nil_append] at h
      rw [e']; exact h)
  have k1 := key rs _ (Xor.init_nonzero seed)
  have k2 := key rs' _ (Xor.init_nonzero seed)
  refine ⟨by rw [k1, k2, h], ?_⟩
  obtain ⟨g, vs, e, _⟩ := Xor.draws_isSome (rs.map Req.size).sum _ (Xor.init_nonzero seed)
  rw [k1, e]; rfl

example : ([Req.single, .block 3, .single].map Req.size).sum =
    ([Req.block 2, .single, .block 2].map Req.size).sum := by decide

/-! ### C08 -/

/-- C08: from every table with entries in `[0, 1)` the `n`-th draw is the `n`-th term of the lagged
recurrence with lags 2444 and 4187, no index leaves the table. -/
theorem C08_tausworthe_recurrence (table : List ℚ) (hl : table.length = 9689)
    (ht : ∀ v ∈ table, 0 ≤ v ∧ v < 1) (n : Nat) :
    ∃ g vs, draws Taus.next n ⟨table, 0, 2444, 4187⟩ = some (g, vs) ∧ vs.length = n ∧
      (∀ v ∈ vs, 0 ≤ v ∧ v < 1) ∧
      ∀ i < n, vs[i]? = some (Int.fract
        (laggedZ 2444 4187 (fun k => table.getD k 0) ((i : Int) - 2444) -
          laggedZ 2444 4187 (fun k => table.getD k 0) ((i : Int) - 4187))) ∧
        vs[i]? = some (laggedZ 2444 4187 (fun k => table.getD k 0) i) := by
  have hget : ∀ k, k < 9689 → table[k]? = some (table.getD k 0) := by
    intro k hk
    rw [List.getD_eq_getElem?_getD, List.getElem?_eq_getElem (by omega)]; rfl
  have hr := Taus.ring_init ⟨table, 0, 2444, 4187⟩ (fun k => table.getD k 0) hl rfl rfl rfl hget
  obtain ⟨g, e, _⟩ := Taus.draws_spec (fun k => table.getD k 0)
    (fun k _ hk => ht _ (List.mem_of_getElem? (hget k hk))) n 0 _ hr
  refine ⟨g, _, e, by simp, ?_, ?_⟩
  · intro v hv
    simp only [List.mem_map] at hv
    obtain ⟨i, _, rfl⟩ := hv
    exact lagged_range _ _ _ _
  · intro i hi
    have h1 := lagged_rec 2444 4187 (by norm_num) (by norm_num) (fun k => table.getD k 0) i
    have h2 : laggedZ 2444 4187 (fun k => table.getD k 0) i =
        lagged 2444 4187 (fun k => table.getD k 0) i := by
      unfold laggedZ
      rw [if_pos (by omega)]; rfl
    have h3 : ((List.range n).map (fun i => lagged 2444 4187 (fun k => table.getD k 0) (0 + i)))[i]? =
        some (lagged 2444 4187 (fun k => table.getD k 0) i) := by
      simp [hi]
    rw [h3, h2]
    exact ⟨congrArg some h1, rfl⟩

/-- C08: the table built by `Init` satisfies the hypotheses, whatever numbers in `[0, 1)` the library
generator returns. -/
theorem C08_tausworthe_init (draw : Nat → ℚ) (hd : ∀ k, 0 ≤ draw k ∧ draw k < 1) :
    ∃ table, Taus.init draw = some ⟨table, 0, 2444, 4187⟩ ∧ table.length = 9689 ∧
      ∀ v ∈ table, 0 ≤ v ∧ v < 1 := by
  obtain ⟨g, e, h1, h2, h3, h4, h5⟩ := Taus.init_spec draw hd
  obtain ⟨seq, l, f, s⟩ := g
  simp only at h1 h2 h3 h4 h5
  subst h3 h4 h5
  exact ⟨seq, e, h1, h2⟩

example : ∀ v ∈ List.replicate 9689 (3/4 : ℚ), 0 ≤ v ∧ v < 1 := by
  intro v hv
  rw [List.eq_of_mem_replicate hv]; norm_num

/-! ### C09 -/

/-- C09: `UniformInt(low, high)` is in `[low, high)`. -/
theorem C09_uniformInt_range (low high : Int) (h : low < high) (f : ℚ) (hf : 0 ≤ f ∧ f < 1) :
    low ≤ uniformIntVal low high f ∧ uniformIntVal low high f < high := by
  have hp : (0 : ℚ) < ((high - low : Int) : ℚ) := by exact_mod_cast (by omega : 0 < high - low)
  unfold uniformIntVal
  constructor
  · rw [Int.le_floor]; nlinarith [mul_nonneg hp.le hf.1]
  · rw [Int.floor_lt]
    have : ((high - low : Int) : ℚ) * f < ((high - low : Int) : ℚ) * 1 := by
      apply mul_lt_mul_of_pos_left hf.2 hp
    push_cast at this ⊢
    linarith

/-- C09: every integer of the range is hit by some backend value. -/
theorem C09_uniformInt_onto (low high k : Int) (h1 : low ≤ k) (h2 : k < high) :
    ∃ f : ℚ, 0 ≤ f ∧ f < 1 ∧ uniformIntVal low high f = k := by
  have hp : (0 : ℚ) < ((high - low : Int) : ℚ) := by exact_mod_cast (by omega : 0 < high - low)
  refine ⟨((k - low : Int) : ℚ) / ((high - low : Int) : ℚ), ?_, ?_, ?_⟩
  · exact div_nonneg (by exact_mod_cast (by omega : 0 ≤ k - low)) hp.le
  · rw [div_lt_one hp]; exact_mod_cast (by omega : k - low < high - low)
  · unfold uniformIntVal
    rw [mul_div_cancel₀ _ hp.ne']
    push_cast
    rw [sub_add_cancel, Int.floor_intCast]

/-- C09: `Uniform(low, high)` is in `[low, high)`. -/
theorem C09_uniform_range (low high : ℚ) (h : low < high) (f : ℚ) (hf : 0 ≤ f ∧ f < 1) :
    low ≤ uniformVal low high f ∧ uniformVal low high f < high := by
  unfold uniformVal
  split
  · rename_i e; rw [e.1, e.2]; exact hf
  · constructor <;> nlinarith [hf.1, hf.2]

/-- C09 (and C07): `UniformAt` gives the values single `Uniform` calls would give, all in range. -/
theorem C09_uniformAt (low high : ℚ) (h : low < high) (fs : List ℚ) (hf : ∀ f ∈ fs, 0 ≤ f ∧ f < 1) :
    uniformAtVals low high fs = fs.map (uniformVal low high) ∧
      ∀ v ∈ uniformAtVals low high fs, low ≤ v ∧ v < high := by
  have e : uniformAtVals low high fs = fs.map (uniformVal low high) := by
    unfold uniformAtVals uniformVal
    split <;> simp
  refine ⟨e, ?_⟩
  rw [e]
  intro v hv
  obtain ⟨f, hf', rfl⟩ := List.mem_map.mp hv
  exact C09_uniform_range low high h f (hf f hf')

example : uniformIntVal (-3) 5 (7/8) = 4 ∧ uniformVal (-1) 1 (3/4) = 1/2 ∧
    uniformAtVals (-1) 1 [0, 1/4] = [-1, -1/2] := by decide +kernel

/-! ### C10 -/

attribute [local irreducible] sobolIv in
theorem fresh_ok (n x : BitVec 32) (hx : x.toNat < 2 ^ 30) :
    Sobol.Ok { seqNum := n, ix := List.replicate 6 x, iv := sobolIv, isInit := true } := by
  constructor
  · exact Eq.refl sobolIv
  · exact Eq.refl true
  · exact List.length_replicate
  · intro k v hv
    have e := List.eq_of_mem_replicate (List.mem_of_getElem? hv)
    subst e
    exact hx

/-- C10 (part): every history of at most `2^30 - 2` calls on a fresh sequence, with any mix of up to six
dimensions, succeeds; each call returns as many coordinates as requested, all in `[0, 1)`.
Missing: the documented maximum is `2^30` calls; see `C10_sobol_limit_counterexample`. -/
theorem C10_sobol_range_partial (dims : List Nat) (hd : ∀ d ∈ dims, d ≤ 6)
    (hn : dims.length ≤ 2 ^ 30 - 2) :
    ∃ s s' ps, newSobol = some s ∧ sobolRun dims s = some (s', ps) ∧
      List.Forall₂ (fun d (p : List ℚ) => p.length = d ∧ ∀ c ∈ p, 0 ≤ c ∧ c < 1) dims ps := by
  have ok := fresh_ok 0 0 (Nat.two_pow_pos 30)
  obtain ⟨s', ps, e, _, _, h⟩ := sobolRun_ok dims _ ok hd (by
    have : (0 : BitVec 32).toNat = 0 := rfl
    rw [this]; omega)
  exact ⟨_, s', ps, newSobol_eq, e, h⟩

example : (∀ d ∈ [1, 6, 0, 3], d ≤ 6) ∧ [1, 6, 0, 3].length ≤ 2 ^ 30 - 2 := by decide +kernel

/-- The hypotheses of the limit are met, e.g. by `2^30 - 2` calls with six dimensions. -/
example : (∀ d ∈ List.replicate (2 ^ 30 - 2) 6, d ≤ 6) ∧
    (List.replicate (2 ^ 30 - 2) 6).length = 2 ^ 30 - 2 :=
  ⟨fun _ h => (List.eq_of_mem_replicate h).le, List.length_replicate⟩

/-- C10 fails: after any history of `2^30 - 2` calls, the next call that asks for a coordinate panics,
although only `2^30 - 1` calls have been made. -/
theorem C10_sobol_limit_counterexample (dims : List Nat) (hd : ∀ d ∈ dims, d ≤ 6)
    (hn : dims.length = 2 ^ 30 - 2) (d : Nat) (hd1 : 1 ≤ d) :
    ∃ s s' ps, newSobol = some s ∧ sobolRun dims s = some (s', ps) ∧ s'.nextAt d = none := by
  have ok := fresh_ok 0 0 (Nat.two_pow_pos 30)
  have h0 : (0 : BitVec 32).toNat = 0 := rfl
  obtain ⟨s', ps, e, ok', sn, h⟩ := sobolRun_ok dims _ ok hd (by rw [h0]; omega)
  refine ⟨_, s', ps, newSobol_eq, e, ?_⟩
  rw [h0, hn] at sn
  unfold Sobol.nextAt
  split
  · rfl
  split
  · rfl
  have h1 : (1 : BitVec 32).toNat = 1 := rfl
  have hsn : (s'.seqNum + 1).toNat + 1 = 2 ^ 30 := by
    rw [BitVec.toNat_add, h1]; omega
  simp only [lowestZero_full _ hsn]
  rw [forRange_step (by omega)]
  have hiv : rd s'.iv (((30 : Nat) : Int) * (MaxDim : Int) + 0) = none := by
    rw [ok'.iv]
    decide +kernel
  simp only [hiv, bind]
  cases rd s'.ix 0 <;> rfl

/-! ### C11 -/

/-- C11: take any history of calls on a fresh sequence that each request coordinate `k`.  For every `m`
and `a`, the calls numbered `a·2^m - 1, …, (a+1)·2^m - 2` (counting from 1) put exactly one point in
each interval `[q/2^m, (q+1)/2^m)` of coordinate `k`. -/
theorem C11_sobol_stratified (k : Nat) (dims : List Nat) (hd : ∀ d ∈ dims, k < d ∧ d ≤ 6)
    (hk : k < 6) (hn : dims.length ≤ 2 ^ 30 - 2) (m a : Nat) (ha : 2 ≤ a * 2 ^ m)
    (hN : (a + 1) * 2 ^ m ≤ dims.length + 2) :
    ∃ s s' ps, newSobol = some s ∧ sobolRun dims s = some (s', ps) ∧
      ∀ q : Nat, q < 2 ^ m → ∃! n : Nat, a * 2 ^ m - 1 ≤ n ∧ n ≤ (a + 1) * 2 ^ m - 2 ∧
        ∃ (p : List ℚ) (c : ℚ), ps[n - 1]? = some p ∧ p[k]? = some c ∧
          (q : ℚ) / 2 ^ m ≤ c ∧ c < ((q : ℚ) + 1) / 2 ^ m := by
  have ok := fresh_ok 0 0 (Nat.two_pow_pos 30)
  have h0 : (0 : BitVec 32).toNat = 0 := rfl
  obtain ⟨s', ps, e, u, u0, u1, u2, u3⟩ := sobolRun_coord k hk dims _ 0 ok
    (by rw [List.getElem?_replicate, if_pos hk]) hd (by rw [h0]; omega)
  refine ⟨_, s', ps, newSobol_eq, e, ?_⟩
  simp only [h0] at u1
  have hM : 0 < 2 ^ m := Nat.two_pow_pos _
  generalize hL : a * 2 ^ m = L at *
  have hL2 : (a + 1) * 2 ^ m = L + 2 ^ m := by rw [Nat.add_mul, Nat.one_mul, hL]
  rw [hL2] at hN ⊢
  have hm30 : m ≤ 30 := by
    by_contra hc
    have : 2 ^ 31 ≤ 2 ^ m := Nat.pow_le_pow_right (by norm_num) (by omega)
    omega
  have hmr : 2 ^ m * 2 ^ (30 - m) = 2 ^ 30 := by rw [← pow_add]; congr 1; omega
  have hlt : ∀ n, n ≤ dims.length → u n / 2 ^ (30 - m) < 2 ^ m := by
    intro n hn'
    rw [Nat.div_lt_iff_lt_mul (Nat.two_pow_pos _), hmr]
    exact u2 n hn'
  -- two calls of the run never fall in the same interval
  have hdiff : ∀ A B, L - 1 ≤ A → A < B → B ≤ L + 2 ^ m - 2 →
      u A / 2 ^ (30 - m) ≠ u B / 2 ^ (30 - m) := by
    intro A B hA hAB hB
    refine coordinates_differ u callBit (dirNum k) A B m hAB hm30 ?_ ?_ ?_ ?_ ?_ ?_
    · intro n h1 h2; exact (callBit_spec n (by omega)).2.1
    · intro n h1 h2; exact (callBit_spec n (by omega)).2.2
    · intro j hj
      obtain ⟨v, hv, _, t1, _⟩ := sobolIv_entry k j hk hj
      rw [dirNum_eq hv]; exact t1
    · intro j hj
      obtain ⟨v, hv, _, _, t1⟩ := sobolIv_entry k j hk hj
      rw [dirNum_eq hv]; exact t1
    · intro n h1 h2
      have := u1 n (by omega)
      rw [Nat.zero_add] at this
      exact this
    · intro n h1 h2 hdvd
      have hdL : 2 ^ m ∣ L := ⟨a, by rw [← hL, Nat.mul_comm]⟩
      have h3 : 2 ^ m ∣ n + 1 - L := Nat.dvd_sub hdvd hdL
      have := Nat.le_of_dvd (by omega) h3
      omega
  -- counting
  let f : Fin (2 ^ m) → Fin (2 ^ m) := fun i =>
    ⟨u (L - 1 + i.1) / 2 ^ (30 - m), hlt _ (by have := i.2; omega)⟩
  have hinj : Function.Injective f := by
    intro i j hij
    have hv : u (L - 1 + i.1) / 2 ^ (30 - m) = u (L - 1 + j.1) / 2 ^ (30 - m) :=
      congrArg Fin.val hij
    have hi := i.2
    have hj := j.2
    rcases Nat.lt_trichotomy i.1 j.1 with h | h | h
    · exact absurd hv (hdiff _ _ (by omega) (by omega) (by omega))
    · exact Fin.ext h
    · exact absurd hv.symm (hdiff _ _ (by omega) (by omega) (by omega))
  have hbij := Finite.injective_iff_bijective.mp hinj
  intro q hq
  obtain ⟨i, hi⟩ := hbij.2 ⟨q, hq⟩
  have hi' : u (L - 1 + i.1) / 2 ^ (30 - m) = q := congrArg Fin.val hi
  have hil := i.2
  have hpt : ∀ n, 1 ≤ n → n ≤ dims.length →
      ∃ p, ps[n - 1]? = some p ∧ p[k]? = some ((u n : ℚ) / 2 ^ 30) := by
    intro n h1 h2
    obtain ⟨p, hp, hp2⟩ := u3 (n - 1) (by omega)
    rw [Nat.sub_add_cancel h1] at hp2
    exact ⟨p, hp, hp2⟩
  refine ⟨L - 1 + i.1, ⟨by omega, by omega, ?_⟩, ?_⟩
  · obtain ⟨p, hp, hp2⟩ := hpt (L - 1 + i.1) (by omega) (by omega)
    exact ⟨p, _, hp, hp2, (dyadic_cell _ m q hm30).mpr hi'⟩
  · rintro n ⟨h1, h2, p, c, hp, hc, hq1⟩
    obtain ⟨p', hp', hc'⟩ := hpt n (by omega) (by omega)
    rw [hp] at hp'
    cases hp'
    rw [hc] at hc'
    cases hc'
    have hn' := (dyadic_cell _ m q hm30).mp hq1
    rcases Nat.lt_trichotomy n (L - 1 + i.1) with h | h | h
    · exact absurd (hn'.trans hi'.symm) (hdiff _ _ h1 h (by omega))
    · exact h
    · exact absurd (hi'.trans hn'.symm) (hdiff _ _ (by omega) h (by omega))

/-- The hypotheses hold for mixed dimensions, `k = 2`, `m = 2`, `a = 1`. -/
example : (∀ d ∈ [3, 6, 4, 3, 5, 6], 2 < d ∧ d ≤ 6) ∧ 2 ≤ 1 * 2 ^ 2 ∧
    (1 + 1) * 2 ^ 2 ≤ [3, 6, 4, 3, 5, 6].length + 2 := by decide

/-- The first four points of a fresh sequence leave `[0, 1/4)` empty in dimension 0: the alignment in
`C11_sobol_stratified` cannot be replaced by runs that start at the first call. -/
theorem C11_first_points_counterexample :
    ∃ ps, (newSobol.bind (sobolRun [1, 1, 1, 1])).map (fun r => r.2) = some ps ∧
      ps.length = 4 ∧ ∀ p ∈ ps, ∀ c ∈ p, (1 / 4 : ℚ) ≤ c := by
  refine ⟨[[3 / 4], [1 / 4], [7 / 8], [3 / 8]], ?_, rfl, ?_⟩
  · rw [newSobol_eq]
    decide +kernel
  · decide +kernel

/-! ### C12 -/

/-- C12 fails: a sequence used once and re-initialised does not restart. -/
theorem C12_sobol_restart_counterexample :
    ∃ s s1 s2 p q, newSobol = some s ∧ sobolRun [1] s = some (s1, [p]) ∧ s1.init = some s2 ∧
      (sobolRun [1] s2).map (fun r => r.2) = some [q] ∧ p ≠ q := by
  refine ⟨_, ⟨1, [805306368, 0, 0, 0, 0, 0], sobolIv, true⟩,
    ⟨1, List.replicate 6 0, sobolIv, true⟩, [3 / 4], [1 / 2], newSobol_eq, ?_, ?_, ?_, ?_⟩
  · decide +kernel
  · decide +kernel
  · decide +kernel
  · decide +kernel

/-- C12 (part): re-initialising before the first call is harmless, and re-initialising keeps the call
counter, so the sequence is restarted only in its coordinates.  Missing: the counter is not reset. -/
theorem C12_sobol_restart_partial (s : Sobol) (h : s.Ok) :
    s.init = some { s with ix := List.replicate 6 0 } ∧
      (s.seqNum = 0 → s.init = newSobol) := by
  have e : s.init = some { s with ix := List.replicate 6 0 } := by
    unfold Sobol.init
    simp only [h.init, if_true]
    rfl
  refine ⟨e, fun h0 => ?_⟩
  rw [e, newSobol_eq]
  obtain ⟨a, b, c, d⟩ := s
  simp only at h0 ⊢
  have h1 := h.iv
  have h2 := h.init
  simp only at h1 h2
  rw [h0, h1, h2]

example : Sobol.Ok ⟨5, List.replicate 6 3, sobolIv, true⟩ := fresh_ok 5 3 (by decide +kernel)

end Verif.Rand
