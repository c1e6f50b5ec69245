import Verif.Render.Accum
import Mathlib.Data.Fintype.BigOperators
import Mathlib.Tactic.FinCases
import Mathlib.Logic.Function.Basic
import Mathlib.Data.List.Nodup
import Mathlib.Algebra.BigOperators.Group.List.Basic

/-!
# The concurrent part of rendering: C46

One pass of the loop over renderers in `Manager.RenderDensityFromFile` (render/render.go 268-277) as a transition
system. There are `m + 1` workers; workers `0 .. m-1` are goroutines, worker `m` runs inside the caller. A worker runs
its private operations on its private buffer (`man.workspaces[id]`: buffer, interpolator, generator and scratch space
belong to one worker; the positions and unit buffers are shared but only read) and then sends its number. The channel
has room for `workers` numbers (line 255). Any enabled step of anybody may happen next.
-/

set_option autoImplicit false

namespace Verif.Render

open Verif.Go

variable {M : Type} {σ : Type} {m : ℕ}

/-- State of one pass. `pc i` counts the operations worker `i` has done, `spawned` the goroutines started so far.
render/render.go 255-278 and 305-323. -/
structure Sched (M σ : Type) (m : ℕ) where
  spawned : ℕ
  pc : Fin (m + 1) → ℕ
  buf : Fin (m + 1) → σ
  sent : Fin (m + 1) → Bool
  chan : List (Fin (m + 1))
  received : ℕ
  grid : List M

/-- What one pass runs: the operations of each worker and `Overlap.Add`. render/render.go 267-278 and 305-323. -/
structure Job (M σ : Type) (m : ℕ) where
  ops : Fin (m + 1) → List (σ → Option σ)
  add : σ → List M → Option (List M)

/-- A worker runs once it is started: the goroutines when spawned (line 268-270), the last one in the caller after all
of them (271-272). -/
def Sched.active (s : Sched M σ m) (i : Fin (m + 1)) : Prop :=
  if i = Fin.last m then s.spawned = m else i.val < s.spawned

/-- Start of the pass: cleared buffers, empty channel. render/render.go 255 and 191-213. -/
def Sched.start (init : Fin (m + 1) → σ) (grid : List M) : Sched M σ m :=
  ⟨0, fun _ => 0, init, fun _ => false, [], 0, grid⟩

/-- Steps of the pass, render/render.go 268-277 and 305-323. A panicking operation or `Add` has no step. -/
inductive Sched.Step (J : Job M σ m) : Sched M σ m → Sched M σ m → Prop
  /-- `go man.chanInterpolate(id, r, out)`, 268-270. -/
  | spawn (s : Sched M σ m) (h : s.spawned < m) : Step J s { s with spawned := s.spawned + 1 }
  /-- One operation of `Interpolate` on the worker's own buffer, 309-313. -/
  | work (s : Sched M σ m) (i : Fin (m + 1)) (op : σ → Option σ) (b : σ) (ha : s.active i)
      (hop : (J.ops i)[s.pc i]? = some op) (hb : op (s.buf i) = some b) :
      Step J s { s with pc := Function.update s.pc i (s.pc i + 1), buf := Function.update s.buf i b }
  /-- `out <- id`, 322; blocks while the channel is full. -/
  | send (s : Sched M σ m) (i : Fin (m + 1)) (ha : s.active i) (hd : s.pc i = (J.ops i).length)
      (hs : s.sent i = false) (hc : s.chan.length < m + 1) :
      Step J s { s with sent := Function.update s.sent i true, chan := s.chan ++ [i] }
  /-- `id := <-out` and `r.over.Add(man.workspaces[id].buf, r.box.Vals())`, 274-277; only after the caller's own
  worker is done. -/
  | recv (s : Sched M σ m) (i : Fin (m + 1)) (rest : List (Fin (m + 1))) (g : List M) (hm : s.sent (Fin.last m) = true)
      (hr : s.received < m + 1) (hc : s.chan = i :: rest) (hg : J.add (s.buf i) s.grid = some g) :
      Step J s { s with chan := rest, received := s.received + 1, grid := g }

/-- Reachable in `n` steps. Executions of render/render.go 267-278. -/
inductive Sched.Steps (J : Job M σ m) : ℕ → Sched M σ m → Sched M σ m → Prop
  | refl (s : Sched M σ m) : Steps J 0 s s
  | tail {n : ℕ} {a b c : Sched M σ m} (h : Steps J n a b) (hs : Sched.Step J b c) : Steps J (n + 1) a c

/-- The pass is over: the caller received from every worker. The end of the loop of render/render.go 274-277. -/
def Sched.final (s : Sched M σ m) : Prop := s.received = m + 1

/-- Run operations one after the other. The loop inside one call of render/render.go 305-323. -/
def runOps (ops : List (σ → Option σ)) (b : σ) : Option σ := ops.foldlM (fun b op => op b) b

theorem runOps_append (a b : List (σ → Option σ)) (x : σ) : runOps (a ++ b) x = (runOps a x).bind (runOps b) := by
  unfold runOps
  rw [List.foldlM_append]
  rfl

variable [AddCommMonoid M]

/-- What holds in every reachable state. `done` are the workers received so far. -/
structure Sched.Inv (J : Job M σ m) (init : Fin (m + 1) → σ) (fin : Fin (m + 1) → σ) (N : ℤ) (F : ℤ → M)
    (G : Fin (m + 1) → ℤ → M) (s : Sched M σ m) (done : List (Fin (m + 1))) : Prop where
  sp : s.spawned ≤ m
  pc_le : ∀ i, s.pc i ≤ (J.ops i).length
  buf_eq : ∀ i, runOps ((J.ops i).take (s.pc i)) (init i) = some (s.buf i)
  idle : ∀ i, s.sent i = true → s.active i ∧ s.pc i = (J.ops i).length
  nodup : (done ++ s.chan).Nodup
  mem : ∀ i, i ∈ done ++ s.chan ↔ s.sent i = true
  rec_eq : s.received = done.length
  late : 0 < s.received → s.sent (Fin.last m) = true
  cells : Cells N s.grid (fun c => F c + (done.map (fun i => G i c)).sum)

omit [AddCommMonoid M] in
theorem Sched.active_mono {s : Sched M σ m} {i : Fin (m + 1)} (h : s.spawned < m) (ha : s.active i) :
    i ≠ Fin.last m := by
  rintro rfl
  unfold Sched.active at ha
  rw [if_pos rfl] at ha
  omega

theorem Sched.inv_start (J : Job M σ m) (init fin : Fin (m + 1) → σ) (N : ℤ) (F : ℤ → M) (G : Fin (m + 1) → ℤ → M)
    (grid : List M) (hg : Cells N grid F) : Inv J init fin N F G (start init grid) [] where
  sp := Nat.zero_le _
  pc_le := fun _ => Nat.zero_le _
  buf_eq := fun _ => rfl
  idle := fun i h => by simp [start] at h
  nodup := by simp [start]
  mem := fun i => by simp [start]
  rec_eq := rfl
  late := fun h => by simp [start] at h
  cells := by simpa [start] using hg

theorem Sched.inv_step {J : Job M σ m} {init fin : Fin (m + 1) → σ} {N : ℤ} {F : ℤ → M} {G : Fin (m + 1) → ℤ → M}
    (hfin : ∀ i, runOps (J.ops i) (init i) = some (fin i)) (hadd : ∀ i, Adds N (J.add (fin i)) (G i))
    {s t : Sched M σ m} {done : List (Fin (m + 1))} (h : Inv J init fin N F G s done) (hs : Step J s t) :
    ∃ done', Inv J init fin N F G t done' := by
  cases hs with
  | spawn hlt =>
    refine ⟨done, ⟨hlt, h.pc_le, h.buf_eq, fun i hi => ?_, h.nodup, h.mem, h.rec_eq, h.late, h.cells⟩⟩
    obtain ⟨ha, hp⟩ := h.idle i hi
    refine ⟨?_, hp⟩
    have hne := Sched.active_mono hlt ha
    unfold Sched.active at ha ⊢
    rw [if_neg hne] at ha ⊢
    dsimp only
    omega
  | work i op b ha hop hb =>
    have hlt : s.pc i < (J.ops i).length := by
      by_contra hcon
      rw [List.getElem?_eq_none (by omega)] at hop
      cases hop
    refine ⟨done, ⟨h.sp, fun j => ?_, fun j => ?_, fun j hj => ?_, h.nodup, h.mem, h.rec_eq, h.late, h.cells⟩⟩
    · dsimp only
      by_cases e : j = i
      · subst e; rw [Function.update_self]; exact hlt
      · rw [Function.update_of_ne e]; exact h.pc_le j
    · dsimp only
      by_cases e : j = i
      · subst e
        rw [Function.update_self, Function.update_self, List.take_add_one, hop, runOps_append, h.buf_eq j]
        simp [runOps, hb]
      · rw [Function.update_of_ne e, Function.update_of_ne e]; exact h.buf_eq j
    · obtain ⟨ha', hp⟩ := h.idle j hj
      refine ⟨ha', ?_⟩
      dsimp only
      have : j ≠ i := by rintro rfl; omega
      rw [Function.update_of_ne this]
      exact hp
  | send i ha hd hs hc =>
    have hni : i ∉ done ++ s.chan := by rw [h.mem, hs]; simp
    refine ⟨done, ⟨h.sp, h.pc_le, h.buf_eq, fun j hj => ?_, ?_, fun j => ?_, h.rec_eq, fun hr => ?_, h.cells⟩⟩
    · dsimp only at hj
      by_cases e : j = i
      · subst e; exact ⟨ha, hd⟩
      · rw [Function.update_of_ne e] at hj; exact h.idle j hj
    · dsimp only
      rw [← List.append_assoc, List.nodup_append]
      refine ⟨h.nodup, List.nodup_singleton _, ?_⟩
      intro a hain b hb
      rw [List.mem_singleton] at hb
      subst hb
      rintro rfl
      exact hni hain
    · dsimp only
      rw [← List.append_assoc, List.mem_append, h.mem, List.mem_singleton]
      by_cases e : j = i
      · subst e; simp
      · rw [Function.update_of_ne e]; simp [e]
    · dsimp only
      by_cases e : Fin.last m = i
      · rw [← e, Function.update_self]
      · rw [Function.update_of_ne e]; exact h.late hr
  | recv i rest g hm hr hc hg =>
    refine ⟨done ++ [i], ⟨h.sp, h.pc_le, h.buf_eq, h.idle, ?_, fun j => ?_, ?_, fun _ => hm, ?_⟩⟩
    · have := h.nodup
      rw [hc] at this
      simpa using this
    · have := h.mem j
      rw [hc] at this
      simpa using this
    · dsimp only
      rw [List.length_append, h.rec_eq]
      rfl
    · have hsent : s.sent i = true := by rw [← h.mem, hc]; simp
      have hbuf : s.buf i = fin i := by
        have e := h.buf_eq i
        rw [(h.idle i hsent).2, List.take_length, hfin i] at e
        exact (Option.some.inj e).symm
      rw [hbuf] at hg
      obtain ⟨ys, e, hl, hy⟩ := hadd i s.grid _ h.cells
      rw [hg] at e
      cases e
      refine ⟨hl, fun c c0 c1 => ?_⟩
      dsimp only
      rw [hy c c0 c1, List.map_append, List.sum_append, List.map_singleton, List.sum_singleton]
      beta_reduce
      rw [add_assoc]

/-- Number of steps left. -/
def Sched.left (J : Job M σ m) (s : Sched M σ m) : ℕ :=
  (m - s.spawned) + ∑ i, ((J.ops i).length - s.pc i) + (∑ i, if s.sent i then 0 else 1) + (m + 1 - s.received)

omit [AddCommMonoid M] in
theorem sum_update_lt {f g : Fin (m + 1) → ℕ} (i : Fin (m + 1)) (h1 : f i = g i + 1) (h2 : ∀ j, j ≠ i → f j = g j) :
    ∑ j, f j = ∑ j, g j + 1 := by
  rw [← Finset.add_sum_erase _ _ (Finset.mem_univ i), ← Finset.add_sum_erase (s := Finset.univ) g (Finset.mem_univ i),
    h1, Finset.sum_congr rfl fun j hj => h2 j (Finset.ne_of_mem_erase hj)]
  ring

omit [AddCommMonoid M] in
theorem Sched.left_step {J : Job M σ m} {s t : Sched M σ m} (hs : Step J s t) : s.left J = t.left J + 1 := by
  cases hs with
  | spawn hlt => unfold left; dsimp only; omega
  | work i op b ha hop hb =>
    have hlt : s.pc i < (J.ops i).length := by
      by_contra hcon
      rw [List.getElem?_eq_none (by omega)] at hop
      cases hop
    unfold left
    dsimp only
    rw [sum_update_lt (f := fun j => (J.ops j).length - s.pc j)
      (g := fun j => (J.ops j).length - Function.update s.pc i (s.pc i + 1) j) i]
    · omega
    · rw [Function.update_self]; omega
    · intro j hj
      rw [Function.update_of_ne hj]
  | send i ha hd hs hc =>
    unfold left
    dsimp only
    rw [sum_update_lt (f := fun j => if s.sent j = true then 0 else 1)
      (g := fun j => if Function.update s.sent i true j = true then 0 else 1) i]
    · omega
    · rw [Function.update_self, hs]; simp
    · intro j hj
      rw [Function.update_of_ne hj]
  | recv i rest g hm hr hc hg => unfold left; dsimp only; omega

theorem Sched.progress {J : Job M σ m} {init fin : Fin (m + 1) → σ} {N : ℤ} {F : ℤ → M} {G : Fin (m + 1) → ℤ → M}
    (hfin : ∀ i, runOps (J.ops i) (init i) = some (fin i)) (hadd : ∀ i, Adds N (J.add (fin i)) (G i))
    {s : Sched M σ m} {done : List (Fin (m + 1))} (h : Inv J init fin N F G s done) (hf : ¬ s.final) :
    ∃ t, Step J s t := by
  have hlen : (done ++ s.chan).length ≤ m + 1 := by
    have := List.Nodup.length_le_card h.nodup
    rwa [Fintype.card_fin] at this
  rw [List.length_append, ← h.rec_eq] at hlen
  have hrec : s.received < m + 1 := by
    have : s.received ≠ m + 1 := hf
    omega
  by_cases hsp : s.spawned < m
  · exact ⟨_, Step.spawn s hsp⟩
  have hact : ∀ i, s.active i := by
    intro i
    have := h.sp
    unfold active
    split_ifs with e
    · omega
    · have h1 := i.isLt
      have h2 : i.val ≠ m := fun e' => e (Fin.ext e')
      omega
  by_cases hall : ∀ i, s.sent i = true
  · cases hc : s.chan with
    | nil =>
      exfalso
      have hmem : ∀ i, i ∈ done := fun i => by
        have := (h.mem i).mpr (hall i)
        rwa [hc, List.append_nil] at this
      have hnd := h.nodup
      rw [hc, List.append_nil] at hnd
      have : done.toFinset = Finset.univ := by
        ext i; simp [hmem i]
      have hcard := List.toFinset_card_of_nodup hnd
      rw [this, Finset.card_univ, Fintype.card_fin, ← h.rec_eq] at hcard
      omega
    | cons i rest =>
      have hsent : s.sent i = true := hall i
      have hbuf : s.buf i = fin i := by
        have e := h.buf_eq i
        rw [(h.idle i hsent).2, List.take_length, hfin i] at e
        exact (Option.some.inj e).symm
      obtain ⟨ys, e, _⟩ := hadd i s.grid _ h.cells
      rw [← hbuf] at e
      exact ⟨_, Step.recv s i rest ys (hall _) hrec hc e⟩
  · push Not at hall
    obtain ⟨i, hi⟩ := hall
    have hi : s.sent i = false := by simpa using hi
    by_cases hpc : s.pc i = (J.ops i).length
    · refine ⟨_, Step.send s i (hact i) hpc hi ?_⟩
      by_contra hcon
      have hcl : s.chan.length = m + 1 := by omega
      have hr0 : done = [] := List.length_eq_zero_iff.mp (by rw [← h.rec_eq]; omega)
      have hnd := h.nodup
      rw [hr0, List.nil_append] at hnd
      have : s.chan.toFinset = Finset.univ := by
        apply Finset.eq_univ_of_card
        rw [List.toFinset_card_of_nodup hnd, hcl, Fintype.card_fin]
      have hin : i ∈ s.chan := by
        rw [← List.mem_toFinset, this]; exact Finset.mem_univ _
      have := (h.mem i).mp (by rw [hr0, List.nil_append]; exact hin)
      rw [hi] at this
      cases this
    · have hlt : s.pc i < (J.ops i).length := lt_of_le_of_ne (h.pc_le i) hpc
      have hop : (J.ops i)[s.pc i]? = some (J.ops i)[s.pc i] := List.getElem?_eq_getElem hlt
      have hrun := hfin i
      have hsplit : J.ops i = (J.ops i).take (s.pc i) ++ ((J.ops i)[s.pc i] :: (J.ops i).drop (s.pc i + 1)) := by
        rw [← List.drop_eq_getElem_cons hlt, List.take_append_drop]
      rw [hsplit, runOps_append, h.buf_eq i] at hrun
      change runOps _ (s.buf i) = _ at hrun
      unfold runOps at hrun
      rw [List.foldlM_cons] at hrun
      obtain ⟨b, hb, _⟩ := Option.bind_eq_some_iff.mp hrun
      exact ⟨_, Step.work s i _ b (hact i) hop hb⟩

theorem Sched.inv_steps {J : Job M σ m} {init fin : Fin (m + 1) → σ} {N : ℤ} {F : ℤ → M} {G : Fin (m + 1) → ℤ → M}
    (hfin : ∀ i, runOps (J.ops i) (init i) = some (fin i)) (hadd : ∀ i, Adds N (J.add (fin i)) (G i))
    {grid : List M} (hg : Cells N grid F) {n : ℕ} {s0 s : Sched M σ m} (e0 : s0 = start init grid)
    (h : Steps J n s0 s) : ∃ done, Inv J init fin N F G s done := by
  induction h with
  | refl => subst e0; exact ⟨[], inv_start J init fin N F G grid hg⟩
  | tail _ hs ih =>
    obtain ⟨done, hi⟩ := ih e0
    exact inv_step hfin hadd hi hs

omit [AddCommMonoid M] in
theorem Sched.left_steps {J : Job M σ m} {n : ℕ} {s0 s : Sched M σ m} (h : Steps J n s0 s) :
    s0.left J = s.left J + n := by
  induction h with
  | refl => rfl
  | tail _ hs ih =>
    have := left_step hs
    omega

/-- **C46**: whatever the interleaving of the workers and the receiver,
* every reachable state that is not final has a next step: no deadlock, no panic;
* every execution is finite, and all complete executions have the same length;
* the final grid is the previous grid plus the contributions of all workers; the channel is empty again and no worker
  is still running, so the next pass starts as this one did. -/
theorem C46_schedule (J : Job M σ m) (init fin : Fin (m + 1) → σ) (N : ℤ) (G : Fin (m + 1) → ℤ → M)
    (hfin : ∀ i, runOps (J.ops i) (init i) = some (fin i)) (hadd : ∀ i, Adds N (J.add (fin i)) (G i))
    (grid : List M) (F : ℤ → M) (hg : Cells N grid F) (n : ℕ) (s : Sched M σ m)
    (h : Sched.Steps J n (Sched.start init grid) s) :
    (¬ s.final → ∃ t, Sched.Step J s t) ∧
    n ≤ m + ∑ i, (J.ops i).length + (m + 1) + (m + 1) ∧
    (s.final → n = m + ∑ i, (J.ops i).length + (m + 1) + (m + 1) ∧
      Cells N s.grid (fun c => F c + ∑ i, G i c) ∧ s.chan = [] ∧
      (∀ i, s.sent i = true ∧ s.pc i = (J.ops i).length ∧ s.buf i = fin i) ∧
      ¬ ∃ t, Sched.Step J s t) := by
  obtain ⟨done, hi⟩ := Sched.inv_steps hfin hadd hg rfl h
  have hl := Sched.left_steps h
  have hl0 : (Sched.start init grid : Sched M σ m).left J = m + ∑ i, (J.ops i).length + (m + 1) + (m + 1) := by
    unfold Sched.left Sched.start
    simp
  rw [hl0] at hl
  refine ⟨Sched.progress hfin hadd hi, by omega, fun hf => ?_⟩
  have hlen : (done ++ s.chan).length ≤ m + 1 := by
    have := List.Nodup.length_le_card hi.nodup
    rwa [Fintype.card_fin] at this
  have hrec : done.length = m + 1 := by rw [← hi.rec_eq]; exact hf
  rw [List.length_append, hrec] at hlen
  have hchan : s.chan = [] := List.length_eq_zero_iff.mp (by omega)
  have hnd := hi.nodup
  rw [hchan, List.append_nil] at hnd
  have huniv : done.toFinset = Finset.univ := by
    apply Finset.eq_univ_of_card
    rw [List.toFinset_card_of_nodup hnd, hrec, Fintype.card_fin]
  have hsent : ∀ i, s.sent i = true := by
    intro i
    rw [← hi.mem, hchan, List.append_nil, ← List.mem_toFinset, huniv]
    exact Finset.mem_univ _
  have hpc : ∀ i, s.pc i = (J.ops i).length := fun i => (hi.idle i (hsent i)).2
  have hleft : s.left J = 0 := by
    unfold Sched.left
    have h1 := (hi.idle (Fin.last m) (hsent _)).1
    unfold Sched.active at h1
    rw [if_pos rfl] at h1
    have h2 : s.received = m + 1 := hf
    simp [hsent, hpc, h1, h2]
  refine ⟨by omega, ?_, hchan, fun i => ⟨hsent i, hpc i, ?_⟩, ?_⟩
  · have := hi.cells
    refine ⟨this.1, fun c c0 c1 => ?_⟩
    rw [this.2 c c0 c1]
    beta_reduce
    rw [← List.sum_toFinset _ hnd, huniv]
  · have e := hi.buf_eq i
    rw [hpc i, List.take_length, hfin i] at e
    exact (Option.some.inj e).symm
  · rintro ⟨t, ht⟩
    have := Sched.left_step ht
    omega

/-- Some execution always reaches a final state, so the statement about final states is not empty. -/
theorem C46_terminates (J : Job M σ m) (init fin : Fin (m + 1) → σ) (N : ℤ) (G : Fin (m + 1) → ℤ → M)
    (hfin : ∀ i, runOps (J.ops i) (init i) = some (fin i)) (hadd : ∀ i, Adds N (J.add (fin i)) (G i))
    (grid : List M) (F : ℤ → M) (hg : Cells N grid F) (n : ℕ) (s : Sched M σ m)
    (h : Sched.Steps J n (Sched.start init grid) s) :
    ∃ k t, Sched.Steps J (n + k) (Sched.start init grid) t ∧ t.final := by
  induction hl : s.left J using Nat.strong_induction_on generalizing s n with
  | _ l ih =>
    by_cases hf : s.final
    · exact ⟨0, s, h, hf⟩
    · obtain ⟨t, ht⟩ := (C46_schedule J init fin N G hfin hadd grid F hg n s h).1 hf
      have hlt := Sched.left_step ht
      obtain ⟨k, u, hu, hfu⟩ := ih (t.left J) (by omega) (n + 1) t (Sched.Steps.tail h ht) rfl
      exact ⟨1 + k, u, by rw [← add_assoc]; exact hu, hfu⟩

/-- Three workers, each counting two points into its own two-cell buffer; the buffers are added cell by cell. -/
example : ∃ (J : Job ℚ (List ℚ) 2) (fin : Fin 3 → List ℚ) (G : Fin 3 → ℤ → ℚ),
    (∀ i, runOps (J.ops i) [0, 0] = some (fin i)) ∧ ∀ i, Adds 2 (J.add (fin i)) (G i) := by
  refine ⟨⟨fun i => [fun b => accum b 0 (i.val : ℚ), fun b => accum b 1 1], fun b g => do
      let v ← rd b 0
      accum g 0 v⟩, fun i => [(i.val : ℚ), 1], fun i c => if c = 0 then (i.val : ℚ) else 0, ?_, ?_⟩
  · intro i
    unfold runOps
    have h0 : accum [(0 : ℚ), 0] 0 (i.val : ℚ) = some [(i.val : ℚ), 0] := by simp [accum, rd, wr]
    have h1 : accum [(i.val : ℚ), 0] 1 (1 : ℚ) = some [(i.val : ℚ), 1] := by simp [accum, rd, wr]
    simp [h0, h1]
  · intro i
    have : ∀ g : List ℚ, (do let v ← rd [(i.val : ℚ), 1] 0; accum g 0 v) = accum g 0 (i.val : ℚ) := fun g => rfl
    simp only [this]
    exact adds_accum (by norm_num) (by norm_num) _

end Verif.Render
