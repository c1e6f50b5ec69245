import Verif.Main.Basic
import Verif.Io.Buffer

/-!
C104, C106: `createGrids` puts every particle of a snapshot into the slot given by its id, in converted units.
-/

set_option autoImplicit false

namespace Verif.Main
open Verif.Go Verif.Geom

/-- All particles of a snapshot. -/
def allParticles (catalogs : List Snapshot) : List (Vec × Vec × ℤ) := catalogs.flatMap (·.particles)

/-- The particles as the buffer sees them. -/
def toBuf (xUnits vUnits : ℚ) (p : Vec × Vec × ℤ) : Io.Particle Vec :=
  ⟨p.1.scale xUnits, p.2.1.scale vUnits, p.2.2⟩

theorem lastFor_unique {ps : List (Io.Particle Vec)} (hn : (ps.map (·.id)).Nodup) (f : Io.Particle Vec → Vec)
    {p : Io.Particle Vec} (hp : p ∈ ps) {j : ℕ} (hj : p.id = (j : ℤ) + 1) (old : Vec) :
    Io.lastFor f ps j old = f p := by
  unfold Io.lastFor
  cases e : (ps.filter fun p => decide (p.id = (j : ℤ) + 1)).getLast? with
  | none =>
    rw [List.getLast?_eq_none_iff, List.filter_eq_nil_iff] at e
    exact absurd (by simpa using hj) (e p hp)
  | some q =>
    have hq := List.mem_of_getLast? e
    rw [List.mem_filter, decide_eq_true_iff] at hq
    have : q = p := List.inj_on_of_nodup_map hn hq.1 hp (hq.2.trans hj.symm)
    rw [this]

/-- The loop over the files followed by `Flush` is a sequence of calls on the particle buffer. -/
theorem createGrids_calls (xUnits vUnits : ℚ) (catalogs : List Snapshot)
    (hc : ∀ c ∈ catalogs, c.hd.count = c.particles.length) (pb : Io.ParticleBuffer Vec) :
    forRange 0 catalogs.length (fun i buf => do
      let c ← rd catalogs i
      if c.hd.count ≠ c.particles.length then none else
      buf.append (c.particles.map fun p => p.1.scale xUnits) (c.particles.map fun p => p.2.1.scale vUnits)
        (c.particles.map fun p => p.2.2)) pb =
    pb.calls (catalogs.map fun c => .append (c.particles.map (toBuf xUnits vUnits))) := by
  rw [Io.forRange_foldlM catalogs
    (fun pb c => pb.call (.append (c.particles.map (toBuf xUnits vUnits))))]
  · unfold Io.ParticleBuffer.calls
    rw [List.foldlM_map]
  · intro k hk s
    refine bind_of (rd_of_lt hk) ?_
    rw [if_neg (by rw [not_not]; exact hc _ (List.getElem_mem hk))]
    unfold Io.ParticleBuffer.call
    simp only [List.map_map]
    rfl

theorem particlesOf_map (xUnits vUnits : ℚ) (catalogs : List Snapshot) :
    Io.particlesOf (catalogs.map fun c => .append (c.particles.map (toBuf xUnits vUnits))) =
      (allParticles catalogs).map (toBuf xUnits vUnits) := by
  unfold Io.particlesOf allParticles
  rw [List.flatMap_map, List.map_flatMap]

/-- C104: when the ids of all files together are distinct numbers from 1 to the total count, the grids hold every
particle of every file, in converted units, in the slot given by its id, whatever the order of the particles and
files and however they are spread over files; the header of the first file is returned with the particle mass
converted and the width of the grid filled in. -/
theorem C104_grids (pow : ℤ → ℚ) (xUnits vUnits mUnits : ℚ) (first : Snapshot) (rest : List Snapshot) (N : ℕ)
    (hN : first.hd.totalCount = (N : ℤ) ^ 3) (hpow : |pow ((N : ℤ) ^ 3) - N| < 1 / 2)
    (hc : ∀ c ∈ first :: rest, c.hd.count = c.particles.length)
    (hid : ∀ p ∈ allParticles (first :: rest), 1 ≤ p.2.2 ∧ p.2.2 ≤ (N : ℤ) ^ 3)
    (hnd : ((allParticles (first :: rest)).map fun p => p.2.2).Nodup) :
    ∃ xs vs, createGrids pow xUnits vUnits mUnits (first :: rest) =
        some ({ first.hd with mass := first.hd.mass * mUnits, countWidth := N }, xs, vs) ∧
      xs.length = N ^ 3 ∧ vs.length = N ^ 3 ∧
      ∀ p ∈ allParticles (first :: rest),
        rd xs (p.2.2 - 1) = some (fun d => p.1 d * xUnits) ∧ rd vs (p.2.2 - 1) = some (fun d => p.2.1 d * vUnits) := by
  set P := (allParticles (first :: rest)).map (toBuf xUnits vUnits) with hP
  have hlen : (List.replicate first.hd.totalCount.toNat (0 : Vec)).length = N ^ 3 := by
    rw [List.length_replicate, hN]
    exact_mod_cast Int.toNat_natCast (N ^ 3)
  obtain ⟨pb, e, h1, h2, h3, h4⟩ := Io.C61_writes (0 : Vec) (List.replicate first.hd.totalCount.toNat 0)
    (List.replicate first.hd.totalCount.toNat 0) rfl catalogBufLen (by decide)
    ((first :: rest).map fun c => .append (c.particles.map (toBuf xUnits vUnits))) (by
      rw [particlesOf_map]
      intro p hp
      obtain ⟨q, hq, rfl⟩ := List.mem_map.mp hp
      rw [hlen]
      have := hid q hq
      push_cast
      exact this)
  rw [particlesOf_map] at h3 h4
  rw [hlen] at h1 h2 h3 h4
  refine ⟨pb.xs, pb.vs, ?_, h1, h2, ?_⟩
  · have hcalls := createGrids_calls xUnits vUnits (first :: rest) hc
      (Io.newParticleBuffer 0 (List.replicate first.hd.totalCount.toNat 0)
        (List.replicate first.hd.totalCount.toNat 0) catalogBufLen)
    have hsplit : ∃ pb', (Io.newParticleBuffer (0 : Vec) (List.replicate first.hd.totalCount.toNat 0)
        (List.replicate first.hd.totalCount.toNat 0) catalogBufLen).calls
        ((first :: rest).map fun c => .append (c.particles.map (toBuf xUnits vUnits))) = some pb' ∧
        pb'.flush = some pb := by
      unfold Io.ParticleBuffer.calls at e
      rw [List.foldlM_append] at e
      obtain ⟨pb', e1, e2⟩ := Option.bind_eq_some_iff.mp e
      refine ⟨pb', e1, ?_⟩
      change (pb'.flush.bind some) = some pb at e2
      rwa [Option.bind_fun_some] at e2
    obtain ⟨pb', e1, e2⟩ := hsplit
    unfold createGrids
    refine bind_of (a := { first.hd with mass := first.hd.mass * mUnits }) rfl ?_
    simp only
    rw [if_neg (by rw [hN]; exact not_lt.mpr (by positivity))]
    refine bind_of (hcalls.trans e1) (bind_of e2 ?_)
    rw [hN]
    exact bind_of (C85_complete pow N hpow) rfl
  · intro p hp
    obtain ⟨i1, i2⟩ := hid p hp
    obtain ⟨j, hj⟩ : ∃ j : ℕ, p.2.2 = (j : ℤ) + 1 := ⟨(p.2.2 - 1).toNat, by omega⟩
    have hjN : j < N ^ 3 := by
      have : (j : ℤ) < (N : ℤ) ^ 3 := by omega
      exact_mod_cast this
    have hmem : toBuf xUnits vUnits p ∈ P := List.mem_map.mpr ⟨p, hp, rfl⟩
    have hndP : (P.map (·.id)).Nodup := by
      rw [hP, List.map_map]
      exact hnd
    rw [hj, add_sub_cancel_right, rd_natCast, rd_natCast, h3 j hjN, h4 j hjN]
    have hrep : (List.replicate first.hd.totalCount.toNat (0 : Vec))[j]? = some 0 := by
      rw [List.length_replicate] at hlen
      rw [List.getElem?_replicate, if_pos (by omega)]
    rw [hrep, Option.map_some, Option.map_some, lastFor_unique hndP (·.x) hmem hj,
      lastFor_unique hndP (·.v) hmem hj]
    exact ⟨rfl, rfl⟩

/-- C104: a particle with an id outside the grid stops the conversion. -/
theorem C104_illegal_id (pow : ℤ → ℚ) (xUnits vUnits mUnits : ℚ) (first : Snapshot) (rest : List Snapshot)
    (h0 : 0 ≤ first.hd.totalCount) (hc : ∀ c ∈ first :: rest, c.hd.count = c.particles.length)
    (hid : ∃ p ∈ allParticles (first :: rest), ¬ (1 ≤ p.2.2 ∧ p.2.2 ≤ first.hd.totalCount)) :
    createGrids pow xUnits vUnits mUnits (first :: rest) = none := by
  have e := Io.C61_illegal_id (0 : Vec) (List.replicate first.hd.totalCount.toNat 0)
    (List.replicate first.hd.totalCount.toNat 0) rfl catalogBufLen (by decide)
    ((first :: rest).map fun c => .append (c.particles.map (toBuf xUnits vUnits))) (by
      rw [particlesOf_map]
      obtain ⟨p, hp, hb⟩ := hid
      refine ⟨toBuf xUnits vUnits p, List.mem_map.mpr ⟨p, hp, rfl⟩, ?_⟩
      rw [List.length_replicate, Int.toNat_of_nonneg h0]
      exact hb)
  have hcalls := createGrids_calls xUnits vUnits (first :: rest) hc
    (Io.newParticleBuffer 0 (List.replicate first.hd.totalCount.toNat 0)
      (List.replicate first.hd.totalCount.toNat 0) catalogBufLen)
  unfold Io.ParticleBuffer.calls at e hcalls
  rw [List.foldlM_append] at e
  unfold createGrids
  refine bind_of (a := { first.hd with mass := first.hd.mass * mUnits }) rfl ?_
  simp only
  rw [if_neg (not_lt.mpr h0)]
  refine Option.bind_eq_none_iff.mpr fun pb' e1 => ?_
  have e1' := hcalls.symm.trans e1
  have e2 := Option.bind_eq_none_iff.mp e pb' e1'
  change (pb'.flush.bind some) = none at e2
  rw [Option.bind_fun_some] at e2
  rw [e2]
  rfl

/-- A snapshot of eight particles in two files, ids in no particular order. -/
def exSnapshot : List Snapshot :=
  [⟨⟨3, 8, 0, 2, 10⟩, [(![1, 2, 3], ![0, 0, 1], 8), (![4, 4, 4], ![0, 1, 0], 2), (![5, 5, 5], ![1, 0, 0], 3)]⟩,
    ⟨⟨5, 8, 0, 2, 10⟩, [(![6, 2, 3], ![0, 0, 1], 1), (![7, 4, 4], ![0, 1, 0], 7), (![8, 5, 5], ![1, 0, 0], 4),
      (![9, 2, 3], ![0, 0, 1], 6), (![0, 4, 4], ![0, 1, 0], 5)]⟩]

example : (createGrids (fun _ => 2) 2 1 10 exSnapshot).map (fun r => (r.1.countWidth, r.1.mass, r.2.1.map (· 0))) =
      some (2, 20, [12, 8, 10, 16, 0, 18, 14, 2]) ∧
    ((allParticles exSnapshot).map fun p => p.2.2).Nodup ∧
    (∀ c ∈ exSnapshot, c.hd.count = c.particles.length) := by decide +kernel

/-! ## C106: units of the box -/

/-- C106 (partial): when positions need no conversion, relative positions in the box are those of the snapshot.
Missing: any other unit, see the counterexample. -/
theorem C106_units_partial (pow : ℤ → ℚ) (vUnits mUnits : ℚ) (first : Snapshot) (rest : List Snapshot) (N : ℕ)
    (hN : first.hd.totalCount = (N : ℤ) ^ 3) (hpow : |pow ((N : ℤ) ^ 3) - N| < 1 / 2)
    (hc : ∀ c ∈ first :: rest, c.hd.count = c.particles.length)
    (hid : ∀ p ∈ allParticles (first :: rest), 1 ≤ p.2.2 ∧ p.2.2 ≤ (N : ℤ) ^ 3)
    (hnd : ((allParticles (first :: rest)).map fun p => p.2.2).Nodup) :
    ∃ hd xs vs, createGrids pow 1 vUnits mUnits (first :: rest) = some (hd, xs, vs) ∧
      ∀ p ∈ allParticles (first :: rest), ∃ x, rd xs (p.2.2 - 1) = some x ∧
        ∀ d, x d / hd.totalWidth = p.1 d / first.hd.totalWidth := by
  obtain ⟨xs, vs, e, -, -, h⟩ := C104_grids pow 1 vUnits mUnits first rest N hN hpow hc hid hnd
  exact ⟨_, xs, vs, e, fun p hp => ⟨_, (h p hp).1, fun d => by rw [mul_one]⟩⟩

/-- Counterexample to C106: the width of the box in the header is not converted. For every unit other than one
and every snapshot with a particle off the origin, the relative position of that particle changes. -/
theorem C106_counterexample (pow : ℤ → ℚ) (xUnits vUnits mUnits : ℚ) (hx : xUnits ≠ 1) (first : Snapshot)
    (rest : List Snapshot) (N : ℕ)
    (hN : first.hd.totalCount = (N : ℤ) ^ 3) (hpow : |pow ((N : ℤ) ^ 3) - N| < 1 / 2)
    (hc : ∀ c ∈ first :: rest, c.hd.count = c.particles.length)
    (hid : ∀ p ∈ allParticles (first :: rest), 1 ≤ p.2.2 ∧ p.2.2 ≤ (N : ℤ) ^ 3)
    (hnd : ((allParticles (first :: rest)).map fun p => p.2.2).Nodup)
    (hL : first.hd.totalWidth ≠ 0) (p : Vec × Vec × ℤ) (hp : p ∈ allParticles (first :: rest)) (d : Fin 3)
    (hpd : p.1 d ≠ 0) :
    ∃ hd xs vs x, createGrids pow xUnits vUnits mUnits (first :: rest) = some (hd, xs, vs) ∧
      rd xs (p.2.2 - 1) = some x ∧ x d / hd.totalWidth ≠ p.1 d / first.hd.totalWidth := by
  obtain ⟨xs, vs, e, -, -, h⟩ := C104_grids pow xUnits vUnits mUnits first rest N hN hpow hc hid hnd
  refine ⟨_, xs, vs, _, e, (h p hp).1, ?_⟩
  simp only
  intro heq
  rw [div_left_inj' hL] at heq
  exact hx (mul_left_cancel₀ hpd (by rw [heq, mul_one]))

end Verif.Main
