import Verif.Render.Whole

/-!
# Every order of the workers happens

The caller of a pass adds the buffers of the workers to the image in the order in which their numbers come out of the
channel (render/render.go 274-277). Any order is possible.
-/

set_option autoImplicit false

namespace Verif.Render

open Verif.Go

variable {M : Type} {σ : Type} {m : ℕ}

theorem Sched.Steps.trans {J : Job M σ m} {n k : ℕ} {a b c : Sched M σ m} (h : Sched.Steps J n a b)
    (h' : Sched.Steps J k b c) : Sched.Steps J (n + k) a c := by
  induction h' with
  | refl => exact h
  | tail _ hs ih => exact .tail (ih h) hs

/-- All goroutines are started. -/
theorem Sched.spawn_all (J : Job M σ m) (s : Sched M σ m) (k : ℕ) (hk : k + s.spawned = m) :
    Sched.Steps J k s { s with spawned := m } := by
  induction k generalizing s with
  | zero =>
    have : s.spawned = m := by omega
    have e : ({ s with spawned := m } : Sched M σ m) = s := by
      cases s
      simp only at this
      simp only [this]
    rw [e]
    exact .refl _
  | succ k ih =>
    have h1 := Sched.Steps.tail (.refl s) (Sched.Step.spawn (J := J) s (by omega))
    have h2 := ih { s with spawned := s.spawned + 1 } (by dsimp only; omega)
    have := h1.trans h2
    rwa [show 0 + 1 + k = k + 1 by omega] at this

theorem Sched.active_all {s : Sched M σ m} (h : s.spawned = m) (i : Fin (m + 1)) : s.active i := by
  unfold Sched.active
  split
  · exact h
  · rename_i hi
    have : i.val ≠ m := fun e => hi (Fin.ext e)
    omega

/-- A started worker runs to its end. -/
theorem Sched.work_on (J : Job M σ m) (s : Sched M σ m) (hs : s.spawned = m) (i : Fin (m + 1)) (b : σ)
    (rest : List (σ → Option σ)) (hd : (J.ops i).drop (s.pc i) = rest) (hb : runOps rest (s.buf i) = some b) :
    ∃ n, Sched.Steps J n s { s with pc := Function.update s.pc i (s.pc i + rest.length), buf := Function.update s.buf i b } := by
  induction rest generalizing s with
  | nil =>
    have hb' : s.buf i = b := by simpa [runOps] using hb
    refine ⟨0, ?_⟩
    have e : s =
        { s with
          pc := Function.update s.pc i (s.pc i + ([] : List (σ → Option σ)).length)
          buf := Function.update s.buf i b } := by
      rw [List.length_nil, add_zero, ← hb', Function.update_eq_self, Function.update_eq_self]
    exact e ▸ .refl _
  | cons op rest ih =>
    unfold runOps at hb
    rw [List.foldlM_cons] at hb
    obtain ⟨b1, hb1, hb2⟩ := Option.bind_eq_some_iff.mp hb
    have hop : (J.ops i)[s.pc i]? = some op := by
      have := List.getElem?_drop (xs := J.ops i) (i := s.pc i) (j := 0)
      rw [hd] at this
      simpa using this.symm
    have h1 := Sched.Steps.tail (.refl s) (Sched.Step.work (J := J) s i op b1 (Sched.active_all hs i) hop hb1)
    obtain ⟨n, h2⟩ := ih { s with pc := Function.update s.pc i (s.pc i + 1), buf := Function.update s.buf i b1 } hs
      (by
        dsimp only
        rw [Function.update_self, ← List.drop_drop, hd]
        rfl)
      (by
        dsimp only
        rw [Function.update_self]
        exact hb2)
    refine ⟨0 + 1 + n, ?_⟩
    have := h1.trans h2
    dsimp only at this
    rw [Function.update_idem, Function.update_idem, Function.update_self] at this
    rw [List.length_cons, show s.pc i + (rest.length + 1) = s.pc i + 1 + rest.length by omega]
    exact this

/-- All workers in the list run to their ends. -/
theorem Sched.work_all (J : Job M σ m) (fin : Fin (m + 1) → σ) (l : List (Fin (m + 1))) (hl : l.Nodup) (s : Sched M σ m)
    (hs : s.spawned = m) (h : ∀ i ∈ l, s.pc i = 0 ∧ runOps (J.ops i) (s.buf i) = some (fin i)) :
    ∃ n t, Sched.Steps J n s t ∧ t.spawned = m ∧ t.sent = s.sent ∧ t.chan = s.chan ∧ t.received = s.received ∧
      t.grid = s.grid ∧ (∀ i ∈ l, t.pc i = (J.ops i).length ∧ t.buf i = fin i) ∧
      ∀ i, i ∉ l → t.pc i = s.pc i ∧ t.buf i = s.buf i := by
  induction l generalizing s with
  | nil => exact ⟨0, s, .refl _, hs, rfl, rfl, rfl, rfl, by simp, fun i _ => ⟨rfl, rfl⟩⟩
  | cons i l ih =>
    obtain ⟨hi, hl⟩ := List.nodup_cons.mp hl
    obtain ⟨h0, h1⟩ := h i (by simp)
    obtain ⟨n, hn⟩ := Sched.work_on J s hs i (fin i) (J.ops i) (by rw [h0, List.drop_zero]) h1
    obtain ⟨k, t, hk, a1, a2, a3, a4, a5, a6, a7⟩ := ih hl
      { s with pc := Function.update s.pc i (s.pc i + (J.ops i).length), buf := Function.update s.buf i (fin i) } hs
      (fun j hj => by
        have : j ≠ i := fun e => hi (e ▸ hj)
        dsimp only
        rw [Function.update_of_ne this, Function.update_of_ne this]
        exact h j (by simp [hj]))
    refine ⟨n + k, t, hn.trans hk, a1, a2, a3, a4, a5, fun j hj => ?_, fun j hj => ?_⟩
    · rcases List.mem_cons.mp hj with rfl | hj
      · have := a7 j hi
        dsimp only at this
        rw [Function.update_self, Function.update_self, h0, zero_add] at this
        exact this
      · exact a6 j hj
    · have hne : j ≠ i := fun e => hj (by simp [e])
      have := a7 j (fun e => hj (by simp [e]))
      dsimp only at this
      rwa [Function.update_of_ne hne, Function.update_of_ne hne] at this

/-- The workers send their numbers in the order of the list. -/
theorem Sched.send_all (J : Job M σ m) (l : List (Fin (m + 1))) (hl : l.Nodup) (s : Sched M σ m) (hs : s.spawned = m)
    (hd : ∀ i, s.pc i = (J.ops i).length) (hsent : ∀ i ∈ l, s.sent i = false) (hc : s.chan.length + l.length ≤ m + 1) :
    ∃ n t, Sched.Steps J n s t ∧ t.chan = s.chan ++ l ∧ t.received = s.received ∧ t.grid = s.grid ∧ t.buf = s.buf ∧
      (∀ i ∈ l, t.sent i = true) ∧ ∀ i, s.sent i = true → t.sent i = true := by
  induction l generalizing s with
  | nil => exact ⟨0, s, .refl _, by simp, rfl, rfl, rfl, by simp, fun _ h => h⟩
  | cons i l ih =>
    obtain ⟨hi, hl⟩ := List.nodup_cons.mp hl
    rw [List.length_cons] at hc
    have h1 := Sched.Steps.tail (.refl s) (Sched.Step.send (J := J) s i (Sched.active_all hs i) (hd i)
      (hsent i (by simp)) (by omega))
    obtain ⟨n, t, h2, a1, a2, a3, a4, a5, a6⟩ := ih hl
      { s with sent := Function.update s.sent i true, chan := s.chan ++ [i] } hs hd
      (fun j hj => by
        have : j ≠ i := fun e => hi (e ▸ hj)
        dsimp only
        rw [Function.update_of_ne this]
        exact hsent j (by simp [hj]))
      (by dsimp only; rw [List.length_append, List.length_singleton]; omega)
    refine ⟨_, t, h1.trans h2, by rw [a1]; simp, a2, a3, a4, fun j hj => ?_, fun j hj => ?_⟩
    · rcases List.mem_cons.mp hj with rfl | hj
      · exact a6 j (by dsimp only; rw [Function.update_self])
      · exact a5 j hj
    · apply a6
      dsimp only
      by_cases e : j = i
      · rw [e, Function.update_self]
      · rw [Function.update_of_ne e]
        exact hj

/-- The caller adds the buffers of the workers in the channel. -/
theorem Sched.recv_all (J : Job M σ m) (l : List (Fin (m + 1))) (s : Sched M σ m) (hm : s.sent (Fin.last m) = true)
    (hc : s.chan = l) (hr : s.received + l.length = m + 1) (g : List M)
    (hg : l.foldlM (fun g i => J.add (s.buf i) g) s.grid = some g) :
    ∃ n t, Sched.Steps J n s t ∧ t.final ∧ t.grid = g := by
  induction l generalizing s with
  | nil =>
    refine ⟨0, s, .refl _, by unfold Sched.final; simpa using hr, by simpa using hg⟩
  | cons i l ih =>
    rw [List.length_cons] at hr
    rw [List.foldlM_cons] at hg
    obtain ⟨g1, hg1, hg2⟩ := Option.bind_eq_some_iff.mp hg
    have h1 := Sched.Steps.tail (.refl s) (Sched.Step.recv (J := J) s i l g1 hm (by omega) hc hg1)
    obtain ⟨n, t, h2, hf, ht⟩ := ih { s with chan := l, received := s.received + 1, grid := g1 } hm rfl
      (by dsimp only; omega) hg2
    exact ⟨_, t, h1.trans h2, hf, ht⟩

/-- For every order of the workers there is an execution of the pass that adds their buffers in this order. -/
theorem Sched.any_order (J : Job M σ m) (init fin : Fin (m + 1) → σ) (grid g : List M) (l : List (Fin (m + 1)))
    (hl : l.Perm (List.finRange (m + 1))) (hfin : ∀ i, runOps (J.ops i) (init i) = some (fin i))
    (hg : l.foldlM (fun g i => J.add (fin i) g) grid = some g) :
    ∃ n t, Sched.Steps J n (Sched.start init grid) t ∧ t.final ∧ t.grid = g := by
  have hnd : l.Nodup := hl.nodup_iff.mpr (List.nodup_finRange _)
  have hmem : ∀ i, i ∈ l := fun i => hl.mem_iff.mpr (List.mem_finRange i)
  have hlen : l.length = m + 1 := by rw [hl.length_eq, List.length_finRange]
  have h1 := Sched.spawn_all J (Sched.start init grid) m (by simp [Sched.start])
  obtain ⟨n2, t2, h2, b1, b2, b3, b4, b5, b6, -⟩ := Sched.work_all J fin l hnd
    { Sched.start init grid with spawned := m } rfl (fun i _ => ⟨rfl, hfin i⟩)
  obtain ⟨n3, t3, h3, c1, c2, c3, c4, c5, -⟩ := Sched.send_all J l hnd t2 b1 (fun i => (b6 i (hmem i)).1)
    (fun i _ => by rw [b2]; rfl) (by rw [b3]; change 0 + l.length ≤ m + 1; omega)
  have hbuf : t3.buf = fin := by rw [c4]; funext i; exact (b6 i (hmem i)).2
  obtain ⟨n4, t4, h4, d1, d2⟩ := Sched.recv_all J l t3 (c5 _ (hmem _)) (by rw [c1, b3]; rfl)
    (by rw [c2, b4]; change 0 + l.length = m + 1; omega) g (by rw [c3, b5, hbuf]; exact hg)
  exact ⟨_, t4, ((h1.trans h2).trans h3).trans h4, d1, d2⟩

end Verif.Render
