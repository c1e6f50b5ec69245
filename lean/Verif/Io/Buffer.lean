import Verif.Io.Model
import Verif.Go.Loops
import Mathlib.Data.List.Basic
import Mathlib.Tactic.Common

/-!
C61: the particle buffer of `render/io/buffer.go` is invisible. After any sequence of `Append` and `Flush`
calls that ends with a `Flush`, the target arrays hold what writing every particle straight to its slot in
the order of the calls would have left, whatever the size of the buffer.
-/

set_option autoImplicit false

namespace Verif.Io
open Verif.Go

variable {α : Type}

/-! Specification. -/

/-- A particle: position, velocity and id (ids count from one). -/
structure Particle (α : Type) where
  x : α
  v : α
  id : ℤ

/-- One call on the buffer. render/io/buffer.go 30 and 45. -/
inductive Call (α : Type) where
  | append (ps : List (Particle α))
  | flush

/-- The particles of a sequence of calls, in order. -/
def particlesOf (cs : List (Call α)) : List (Particle α) :=
  cs.flatMap fun c => match c with
    | .append ps => ps
    | .flush => []

/-- What slot `j` holds after writing all of `ps` straight to their slots: the last particle with id `j+1`
wins, and an untouched slot keeps its old contents. -/
def lastFor (f : Particle α → α) (ps : List (Particle α)) (j : ℕ) (old : α) : α :=
  match (ps.filter fun p => p.id = (j : ℤ) + 1).getLast? with
  | some p => f p
  | none => old

/-- Perform one call on the buffer. render/io/buffer.go 30-51. -/
def ParticleBuffer.call (pb : ParticleBuffer α) : Call α → Option (ParticleBuffer α)
  | .append ps => pb.append (ps.map (·.x)) (ps.map (·.v)) (ps.map (·.id))
  | .flush => pb.flush

/-- Perform a sequence of calls. Calls of render/io/buffer.go 30-51 one after the other. -/
def ParticleBuffer.calls (pb : ParticleBuffer α) (cs : List (Call α)) : Option (ParticleBuffer α) :=
  cs.foldlM ParticleBuffer.call pb

/-! Proof. -/

/-- Direct writes. -/
def direct1 (s : List α × List α) (p : Particle α) : Option (List α × List α) := do
  let xs ← wr s.1 (p.id - 1) p.x
  let vs ← wr s.2 (p.id - 1) p.v
  some (xs, vs)

def direct (ps : List (Particle α)) (s : List α × List α) : Option (List α × List α) :=
  ps.foldlM direct1 s

theorem direct_append (ps qs : List (Particle α)) (s : List α × List α) :
    direct (ps ++ qs) s = (direct ps s).bind (direct qs) := by
  unfold direct
  rw [List.foldlM_append]
  rfl

theorem forRange_foldlM {β σ : Type} (l : List β) (f : σ → β → Option σ) (body : ℤ → σ → Option σ)
    (h : ∀ k (hk : k < l.length) s, body (k : ℤ) s = f s l[k]) (s : σ) :
    forRange 0 l.length body s = l.foldlM f s := by
  induction l using List.reverseRecOn with
  | nil => exact forRange_empty (by simp) _ _
  | append_singleton l b ih =>
    rw [List.length_append, List.length_singleton, Nat.cast_add, Nat.cast_one, forRange_last (by omega),
      ih (fun k hk s => by
        rw [h k (by simp; omega) s, List.getElem_append_left hk]), List.foldlM_append]
    change _ = (List.foldlM f s l).bind _
    congr 1
    funext t
    rw [h l.length (by simp) t]
    simp

/-- The first entries of the three buffers hold the particles `P`, and there is room for one more. -/
structure Pending (pb : ParticleBuffer α) (P : List (Particle α)) (B : ℕ) : Prop where
  xlen : pb.xBuf.length = B
  vlen : pb.vBuf.length = B
  ilen : pb.idBuf.length = B
  idx : pb.idx = P.length
  room : P.length < B
  x : ∀ k (hk : k < P.length), pb.xBuf[k]? = some P[k].x
  v : ∀ k (hk : k < P.length), pb.vBuf[k]? = some P[k].v
  id : ∀ k (hk : k < P.length), pb.idBuf[k]? = some P[k].id

theorem flush_eq {pb : ParticleBuffer α} {P : List (Particle α)} (hi : pb.idx = P.length)
    (x : ∀ k (hk : k < P.length), pb.xBuf[k]? = some P[k].x)
    (v : ∀ k (hk : k < P.length), pb.vBuf[k]? = some P[k].v)
    (id : ∀ k (hk : k < P.length), pb.idBuf[k]? = some P[k].id) :
    pb.flush = (direct P (pb.xs, pb.vs)).map fun s => { pb with idx := 0, xs := s.1, vs := s.2 } := by
  unfold ParticleBuffer.flush
  rw [hi, forRange_foldlM P direct1]
  · rw [Option.map_eq_bind]
    rfl
  · intro k hk s
    simp only [rd_natCast, x k hk, v k hk, id k hk, direct1, bind, Option.bind_some]

/-- What a stretch of calls does to the buffer and the targets: either everything up to some point has been
written and the rest is pending, or one of the writes failed. -/
def Stretch (pb : ParticleBuffer α) (P ps : List (Particle α)) (B : ℕ) (r : Option (ParticleBuffer α)) : Prop :=
  (∃ pb' P' done, r = some pb' ∧ Pending pb' P' B ∧ done ++ P' = P ++ ps ∧
    direct done (pb.xs, pb.vs) = some (pb'.xs, pb'.vs)) ∨
  (r = none ∧ direct (P ++ ps) (pb.xs, pb.vs) = none)

theorem flush_stretch {pb : ParticleBuffer α} {P : List (Particle α)} {B : ℕ} (h : Pending pb P B) :
    Stretch pb P [] B pb.flush := by
  rw [flush_eq h.idx h.x h.v h.id]
  cases e : direct P (pb.xs, pb.vs) with
  | none =>
    right
    exact ⟨rfl, by rw [List.append_nil, e]⟩
  | some s =>
    left
    refine ⟨_, [], P, rfl, ⟨h.xlen, h.vlen, h.ilen, rfl, lt_of_le_of_lt (Nat.zero_le _) h.room, ?_, ?_, ?_⟩, rfl,
      e⟩ <;> intro k hk <;> exact absurd hk (by simp)

/-- One particle of `Append`. -/
def append1 (pb : ParticleBuffer α) (p : Particle α) : Option (ParticleBuffer α) := do
  let xb ← wr pb.xBuf pb.idx p.x
  let vb ← wr pb.vBuf pb.idx p.v
  let ib ← wr pb.idBuf pb.idx p.id
  let pb : ParticleBuffer α := { pb with xBuf := xb, vBuf := vb, idBuf := ib, idx := pb.idx + 1 }
  if pb.idx = pb.xBuf.length then pb.flush else some pb

theorem append_eq (pb : ParticleBuffer α) (ps : List (Particle α)) :
    pb.append (ps.map (·.x)) (ps.map (·.v)) (ps.map (·.id)) = ps.foldlM append1 pb := by
  unfold ParticleBuffer.append
  rw [List.length_map, forRange_foldlM ps append1]
  intro k hk s
  simp only [rd_natCast, List.getElem?_map, List.getElem?_eq_getElem hk, Option.map_some, append1, bind,
    Option.bind_some]

theorem append1_stretch {pb : ParticleBuffer α} {P : List (Particle α)} {B : ℕ} (h : Pending pb P B)
    (p : Particle α) : Stretch pb P [p] B (append1 pb p) := by
  have hr := h.room
  unfold append1
  rw [h.idx, wr_natCast (by rw [h.xlen]; exact hr), wr_natCast (by rw [h.vlen]; exact hr),
    wr_natCast (by rw [h.ilen]; exact hr)]
  simp only [bind, Option.bind_some]
  have hget : ∀ {β : Type} (l : List β) (f : Particle α → β), l.length = B →
      (∀ k (hk : k < P.length), l[k]? = some (f P[k])) →
      ∀ k (hk : k < (P ++ [p]).length), (l.set P.length (f p))[k]? = some (f (P ++ [p])[k]) := by
    intro β l f hl hf k hk
    simp only [List.length_append, List.length_singleton] at hk
    by_cases e : k = P.length
    · subst e
      rw [List.getElem?_set_self (by omega)]
      simp
    · rw [List.getElem?_set_ne (by omega), hf k (by omega), List.getElem_append_left (by omega)]
  set pb2 : ParticleBuffer α := { pb with
    xBuf := pb.xBuf.set P.length p.x, vBuf := pb.vBuf.set P.length p.v, idBuf := pb.idBuf.set P.length p.id,
    idx := (P.length : ℤ) + 1 } with hpb2
  have hx := hget pb.xBuf (·.x) h.xlen h.x
  have hv := hget pb.vBuf (·.v) h.vlen h.v
  have hi := hget pb.idBuf (·.id) h.ilen h.id
  have hidx : pb2.idx = (P ++ [p]).length := by simp [hpb2]
  by_cases hfull : (P.length : ℤ) + 1 = (pb.xBuf.set P.length p.x).length
  · rw [if_pos hfull, flush_eq hidx hx hv hi]
    change Stretch pb P [p] B ((direct (P ++ [p]) (pb.xs, pb.vs)).map _)
    cases e : direct (P ++ [p]) (pb.xs, pb.vs) with
    | none =>
      right
      exact ⟨rfl, e⟩
    | some s =>
      left
      refine ⟨_, [], P ++ [p], rfl, ⟨by simp [hpb2, h.xlen], by simp [hpb2, h.vlen], by simp [hpb2, h.ilen],
        rfl, lt_of_le_of_lt (Nat.zero_le _) hr, ?_, ?_, ?_⟩, by simp, e⟩ <;> intro k hk <;>
        exact absurd hk (by simp)
  · rw [if_neg hfull]
    left
    refine ⟨pb2, P ++ [p], [], rfl, ⟨by simp [hpb2, h.xlen], by simp [hpb2, h.vlen], by simp [hpb2, h.ilen],
      hidx, ?_, hx, hv, hi⟩, by simp, rfl⟩
    rw [List.length_set, h.xlen] at hfull
    simp only [List.length_append, List.length_singleton]
    omega

theorem foldlM_stretch {β : Type} (step : ParticleBuffer α → β → Option (ParticleBuffer α))
    (ps : β → List (Particle α)) (B : ℕ)
    (h : ∀ pb P, Pending pb P B → ∀ b, Stretch pb P (ps b) B (step pb b)) (l : List β) :
    ∀ pb P, Pending pb P B → Stretch pb P (l.flatMap ps) B (l.foldlM step pb) := by
  induction l with
  | nil =>
    intro pb P hp
    left
    exact ⟨pb, P, [], rfl, hp, by simp, rfl⟩
  | cons b l ih =>
    intro pb P hp
    rw [List.foldlM_cons, List.flatMap_cons]
    rcases h pb P hp b with ⟨pb1, P1, d1, e1, h1, c1, w1⟩ | ⟨e1, w1⟩
    · rw [e1]
      rcases ih pb1 P1 h1 with ⟨pb2, P2, d2, e2, h2, c2, w2⟩ | ⟨e2, w2⟩
      · left
        refine ⟨pb2, P2, d1 ++ d2, e2, h2, ?_, ?_⟩
        · rw [List.append_assoc, c2, ← List.append_assoc, c1, List.append_assoc]
        · rw [direct_append, w1]
          exact w2
      · right
        refine ⟨e2, ?_⟩
        rw [← List.append_assoc, ← c1, List.append_assoc, direct_append, w1]
        exact w2
    · right
      rw [e1]
      refine ⟨rfl, ?_⟩
      rw [← List.append_assoc, direct_append, w1]
      rfl

theorem calls_stretch (cs : List (Call α)) (B : ℕ) (pb : ParticleBuffer α) (P : List (Particle α))
    (h : Pending pb P B) : Stretch pb P (particlesOf cs) B (pb.calls cs) := by
  refine foldlM_stretch ParticleBuffer.call _ B ?_ cs pb P h
  intro pb P hp c
  cases c with
  | flush => exact flush_stretch hp
  | append ps =>
    change Stretch pb P ps B (pb.append _ _ _)
    rw [append_eq]
    have := foldlM_stretch append1 (fun p => [p]) B (fun pb P hp p => append1_stretch hp p) ps pb P hp
    rwa [List.flatMap_singleton'] at this

/-- The whole run equals direct writes, panics included. -/
theorem calls_flush_eq (zero : α) (xs vs : List α) (B : ℕ) (hB : 1 ≤ B) (cs : List (Call α)) :
    ((newParticleBuffer zero xs vs B).calls (cs ++ [.flush])).map (fun pb => (pb.xs, pb.vs)) =
      direct (particlesOf cs) (xs, vs) := by
  have h0 : Pending (newParticleBuffer zero xs vs B) [] B :=
    ⟨by simp [newParticleBuffer], by simp [newParticleBuffer], by simp [newParticleBuffer], rfl, hB,
      fun k hk => absurd hk (by simp), fun k hk => absurd hk (by simp), fun k hk => absurd hk (by simp)⟩
  unfold ParticleBuffer.calls
  rw [List.foldlM_append]
  rcases calls_stretch cs B _ _ h0 with ⟨pb1, P1, d1, e1, h1, c1, w1⟩ | ⟨e1, w1⟩
  · unfold ParticleBuffer.calls at e1
    rw [e1]
    change (pb1.flush.bind some).map _ = _
    rw [Option.bind_fun_some, flush_eq h1.idx h1.x h1.v h1.id, Option.map_map, ← List.nil_append (particlesOf cs),
      ← c1, direct_append]
    change _ = (direct d1 ((newParticleBuffer zero xs vs B).xs, (newParticleBuffer zero xs vs B).vs)).bind _
    rw [w1]
    change Option.map id _ = _
    rw [Option.map_id]
    rfl
  · unfold ParticleBuffer.calls at e1
    rw [e1]
    exact w1.symm

theorem lastFor_cons (f : Particle α → α) (p : Particle α) (ps : List (Particle α)) (j : ℕ) (old : α) :
    lastFor f (p :: ps) j old = lastFor f ps j (if p.id = (j : ℤ) + 1 then f p else old) := by
  unfold lastFor
  by_cases h : p.id = (j : ℤ) + 1
  · rw [List.filter_cons_of_pos (by simpa using h), List.getLast?_cons, if_pos h]
    cases (List.filter (fun p => decide (p.id = (j : ℤ) + 1)) ps).getLast? <;> rfl
  · rw [List.filter_cons_of_neg (by simpa using h), if_neg h]

theorem direct_ok (ps : List (Particle α)) : ∀ (xs vs : List α), xs.length = vs.length →
    (∀ p ∈ ps, 1 ≤ p.id ∧ p.id ≤ xs.length) →
    ∃ xs' vs', direct ps (xs, vs) = some (xs', vs') ∧ xs'.length = xs.length ∧ vs'.length = vs.length ∧
      (∀ j (_ : j < xs.length), xs'[j]? = (xs[j]?).map (lastFor (·.x) ps j)) ∧
      (∀ j (_ : j < vs.length), vs'[j]? = (vs[j]?).map (lastFor (·.v) ps j)) := by
  induction ps with
  | nil =>
    intro xs vs _ _
    refine ⟨xs, vs, rfl, rfl, rfl, fun j _ => ?_, fun j _ => ?_⟩
    · cases xs[j]? <;> rfl
    · cases vs[j]? <;> rfl
  | cons p ps ih =>
    intro xs vs hl hid
    obtain ⟨k, hk⟩ : ∃ k : ℕ, p.id = (k : ℤ) + 1 := ⟨(p.id - 1).toNat, by have := hid p (by simp); omega⟩
    have hp := hid p (by simp)
    obtain ⟨xs', vs', e, l1, l2, g1, g2⟩ := ih (xs.set k p.x) (vs.set k p.v) (by simpa using hl) (by
      intro q hq
      rw [List.length_set]
      exact hid q (by simp [hq]))
    simp only [List.length_set] at l1 l2 g1 g2
    have hset : ∀ (l : List α) (f : Particle α → α) (j : ℕ), k < l.length →
        ((l.set k (f p))[j]?).map (lastFor f ps j) = (l[j]?).map (lastFor f (p :: ps) j) := by
      intro l f j hkl
      by_cases h : k = j
      · subst h
        rw [List.getElem?_set_self hkl, List.getElem?_eq_getElem hkl, Option.map_some, Option.map_some,
          lastFor_cons, if_pos hk]
      · rw [List.getElem?_set_ne h]
        congr 1
        funext o
        rw [lastFor_cons, if_neg (by omega)]
    refine ⟨xs', vs', ?_, l1, l2, fun j hj => ?_, fun j hj => ?_⟩
    · unfold direct at e ⊢
      rw [List.foldlM_cons]
      refine Option.bind_eq_some_iff.mpr ⟨(xs.set k p.x, vs.set k p.v), ?_, e⟩
      unfold direct1
      rw [hk, add_sub_cancel_right]
      rw [wr_natCast (by simp only; omega), wr_natCast (by simp only; omega)]
      rfl
    · rw [g1 j hj, hset xs (·.x) j (by omega)]
    · rw [g2 j hj, hset vs (·.v) j (by omega)]

theorem direct_bad (ps : List (Particle α)) : ∀ (xs vs : List α), xs.length = vs.length →
    (∃ p ∈ ps, ¬ (1 ≤ p.id ∧ p.id ≤ xs.length)) → direct ps (xs, vs) = none := by
  induction ps with
  | nil => rintro xs vs _ ⟨p, hp, _⟩; simp at hp
  | cons p ps ih =>
    rintro xs vs hl ⟨q, hq, hb⟩
    unfold direct
    rw [List.foldlM_cons]
    refine Option.bind_eq_none_iff.mpr ?_
    rintro ⟨xs1, vs1⟩ e
    unfold direct1 at e
    obtain ⟨a, ea, e⟩ := Option.bind_eq_some_iff.mp e
    obtain ⟨b, eb, e⟩ := Option.bind_eq_some_iff.mp e
    have ha := wr_some ea
    have hb' := wr_some eb
    rw [Option.some.injEq, Prod.mk.injEq] at e
    obtain ⟨rfl, rfl⟩ := e
    rcases List.mem_cons.mp hq with rfl | hq
    · exfalso
      apply hb
      have h1 := ha.1
      have h2 := ha.2.1
      simp only at h2
      omega
    · refine ih _ _ ?_ ⟨q, hq, ?_⟩
      · rw [ha.2.2, hb'.2.2]
        simpa using hl
      · rw [ha.2.2]
        simpa using hb

/-- C61: for every buffer size and every sequence of calls that ends with `Flush`, when all ids are legal,
every slot of both target arrays holds the last particle appended for it, or its old contents. -/
theorem C61_writes (zero : α) (xs vs : List α) (hl : xs.length = vs.length) (B : ℕ) (hB : 1 ≤ B)
    (cs : List (Call α)) (hid : ∀ p ∈ particlesOf cs, 1 ≤ p.id ∧ p.id ≤ xs.length) :
    ∃ pb, (newParticleBuffer zero xs vs B).calls (cs ++ [.flush]) = some pb ∧
      pb.xs.length = xs.length ∧ pb.vs.length = vs.length ∧
      (∀ j, j < xs.length → pb.xs[j]? = (xs[j]?).map (lastFor (·.x) (particlesOf cs) j)) ∧
      (∀ j, j < vs.length → pb.vs[j]? = (vs[j]?).map (lastFor (·.v) (particlesOf cs) j)) := by
  obtain ⟨xs', vs', e, h1, h2, h3, h4⟩ := direct_ok (particlesOf cs) xs vs hl hid
  rw [← calls_flush_eq zero xs vs B hB cs, Option.map_eq_some_iff] at e
  obtain ⟨pb, e, e'⟩ := e
  rw [Prod.mk.injEq] at e'
  obtain ⟨rfl, rfl⟩ := e'
  exact ⟨pb, e, h1, h2, h3, h4⟩

/-- C61: an illegal id is not swallowed by the buffer: the run panics, as direct writes would. -/
theorem C61_illegal_id (zero : α) (xs vs : List α) (hl : xs.length = vs.length) (B : ℕ) (hB : 1 ≤ B)
    (cs : List (Call α)) (hid : ∃ p ∈ particlesOf cs, ¬ (1 ≤ p.id ∧ p.id ≤ xs.length)) :
    (newParticleBuffer zero xs vs B).calls (cs ++ [.flush]) = none := by
  have := direct_bad (particlesOf cs) xs vs hl hid
  rw [← calls_flush_eq zero xs vs B hB cs, Option.map_eq_none_iff] at this
  exact this

/-- C61: the size of the buffer cannot be told from the targets. -/
theorem C61_size_invisible (zero : α) (xs vs : List α) (B B' : ℕ) (hB : 1 ≤ B) (hB' : 1 ≤ B')
    (cs : List (Call α)) :
    ((newParticleBuffer zero xs vs B).calls (cs ++ [.flush])).map (fun pb => (pb.xs, pb.vs)) =
      ((newParticleBuffer zero xs vs B').calls (cs ++ [.flush])).map (fun pb => (pb.xs, pb.vs)) := by
  rw [calls_flush_eq zero xs vs B hB cs, calls_flush_eq zero xs vs B' hB' cs]

example : ((newParticleBuffer (0 : ℤ) [0, 0, 0, 7] [0, 0, 0, 7] 2).calls
    [.append [⟨10, 11, 3⟩, ⟨20, 21, 1⟩, ⟨30, 31, 3⟩], .flush, .append [⟨40, 41, 2⟩], .flush]).map
      (fun pb => (pb.xs, pb.vs)) = some ([20, 40, 30, 7], [21, 41, 31, 7]) := by decide +kernel

end Verif.Io
