import Verif.Render.Whole

/-!
# Passes that cannot finish

The converse of C46: when the operations of one worker panic, no schedule brings the pass to its end.
-/

set_option autoImplicit false

namespace Verif.Render

open Verif.Go

variable {M : Type} {σ : Type} {m : ℕ}

/-- What holds in every reachable state, whatever the operations do. `done` are the workers received so far. -/
structure Sched.Weak (J : Job M σ m) (init : Fin (m + 1) → σ) (s : Sched M σ m) (done : List (Fin (m + 1))) : Prop where
  buf_eq : ∀ i, runOps ((J.ops i).take (s.pc i)) (init i) = some (s.buf i)
  idle : ∀ i, s.sent i = true → s.pc i = (J.ops i).length
  nodup : (done ++ s.chan).Nodup
  mem : ∀ i, i ∈ done ++ s.chan ↔ s.sent i = true
  rec_eq : s.received = done.length

theorem Sched.weak_step {J : Job M σ m} {init : Fin (m + 1) → σ} {s t : Sched M σ m} {done : List (Fin (m + 1))}
    (h : Weak J init s done) (hs : Step J s t) : ∃ done', Weak J init t done' := by
  cases hs with
  | spawn hlt => exact ⟨done, ⟨h.buf_eq, h.idle, h.nodup, h.mem, h.rec_eq⟩⟩
  | work i op b ha hop hb =>
    have hlt : s.pc i < (J.ops i).length := by
      by_contra hcon
      rw [List.getElem?_eq_none (by omega)] at hop
      cases hop
    refine ⟨done, ⟨fun j => ?_, fun j hj => ?_, h.nodup, h.mem, h.rec_eq⟩⟩
    · dsimp only
      by_cases e : j = i
      · subst e
        rw [Function.update_self, Function.update_self, List.take_add_one, hop, runOps_append, h.buf_eq j]
        simp [runOps, hb]
      · rw [Function.update_of_ne e, Function.update_of_ne e]; exact h.buf_eq j
    · have hp := h.idle j hj
      dsimp only
      have : j ≠ i := by rintro rfl; omega
      rw [Function.update_of_ne this]
      exact hp
  | send i ha hd hs hc =>
    have hni : i ∉ done ++ s.chan := by rw [h.mem, hs]; simp
    refine ⟨done, ⟨h.buf_eq, fun j hj => ?_, ?_, fun j => ?_, h.rec_eq⟩⟩
    · dsimp only at hj
      by_cases e : j = i
      · subst e; exact hd
      · rw [Function.update_of_ne e] at hj; exact h.idle j hj
    · dsimp only
      rw [← List.append_assoc, List.nodup_append]
      refine ⟨h.nodup, List.nodup_singleton _, ?_⟩
      intro a hain b hb
      rw [List.mem_singleton] at hb
      subst hb
      rintro rfl
      exact hni hain
    · dsimp only
      rw [← List.append_assoc, List.mem_append, h.mem, List.mem_singleton]
      by_cases e : j = i
      · subst e; simp
      · rw [Function.update_of_ne e]; simp [e]
  | recv i rest g hm hr hc hg =>
    refine ⟨done ++ [i], ⟨h.buf_eq, h.idle, ?_, fun j => ?_, ?_⟩⟩
    · have := h.nodup
      rw [hc] at this
      simpa using this
    · have := h.mem j
      rw [hc] at this
      simpa using this
    · dsimp only
      rw [List.length_append, h.rec_eq]
      rfl

theorem Sched.weak_steps {J : Job M σ m} {init : Fin (m + 1) → σ} {grid : List M} {n : ℕ} {t : Sched M σ m}
    (h : Steps J n (start init grid) t) : ∃ done, Weak J init t done := by
  generalize hs : start init grid = s at h
  induction h with
  | refl => 
    subst hs
    exact ⟨[], ⟨fun _ => rfl, fun i h => by simp [start] at h, by simp [start], fun i => by simp [start], rfl⟩⟩
  | tail _ hst ih =>
    obtain ⟨d, hd⟩ := ih hs
    exact weak_step hd hst

/-- A finished pass has run all operations of all workers. -/
theorem Sched.ran_of_final {J : Job M σ m} {init : Fin (m + 1) → σ} {grid : List M} {n : ℕ} {t : Sched M σ m}
    (h : Steps J n (start init grid) t) (hf : t.final) (i : Fin (m + 1)) : (runOps (J.ops i) (init i)).isSome := by
  obtain ⟨d, hd⟩ := weak_steps h
  have hd1 : d.Nodup := (List.nodup_append.mp hd.nodup).1
  have hc : d.toFinset = Finset.univ := by
    apply Finset.eq_univ_of_card
    rw [List.toFinset_card_of_nodup hd1, ← hd.rec_eq, Fintype.card_fin]
    exact hf
  have hi : i ∈ d := by rw [← List.mem_toFinset, hc]; exact Finset.mem_univ i
  have hs := (hd.mem i).mp (List.mem_append_left _ hi)
  have := hd.buf_eq i
  rw [hd.idle i hs, List.take_length] at this
  rw [this]; rfl

/-- An operation that panics first stops everything. -/
theorem runOps_none {op : σ → Option σ} {ops : List (σ → Option σ)} {x : σ} (h : op x = none) :
    runOps (op :: ops) x = none := by
  unfold runOps
  rw [List.foldlM_cons]
  exact congrArg (· >>= _) h

variable [AddCommMonoid M]

/-- Rendering does not finish when the first tetrahedron of the first segment makes its worker panic. -/
theorem Rendered.not_of_first {reqVel : Bool} {p : SegRun M} {ps : List (SegRun M)} {grid out : List M}
    {v : TetVisit} {vs : List TetVisit} (hv : workerVisits p.mc.segWidth p.mc.skip (m + 1) 0 = v :: vs)
    (hp : mcVisit p.mc reqVel p.sub (p.pick 0) p.xs p.vs v (p.init 0) = none) :
    ¬ Rendered reqVel m (p :: ps) grid out := by
  intro h
  cases h with
  | cons h hf hs =>
    have := Sched.ran_of_final h hf 0
    have e : (p.job reqVel m).ops 0 = (workerVisits p.mc.segWidth p.mc.skip (m + 1) 0).map
        fun v => mcVisit p.mc reqVel p.sub (p.pick 0) p.xs p.vs v := rfl
    rw [e, hv, List.map_cons] at this
    have hn : (runOps _ (p.init 0)).isSome = true := this
    rw [runOps_none hp] at hn
    cases hn

end Verif.Render
