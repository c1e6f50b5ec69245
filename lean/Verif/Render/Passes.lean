import Verif.Render.BufModel
import Verif.Render.Schedule

/-!
# Sequences of passes with reused buffers: C53
-/

set_option autoImplicit false

namespace Verif.Render

open Verif.Go

variable {M : Type} [AddCommMonoid M] {m : ℕ}

/-! ## The buffer plan -/

omit [AddCommMonoid M] in
theorem plan_inner (hit : ℕ → Bool) (size : ℕ → ℤ) (is : List ℕ) (r : ℤ × Bool) :
    let r' := is.foldl (fun (r : ℤ × Bool) i => if hit i then (if size i > r.1 then size i else r.1, true) else r) r
    r.1 ≤ r'.1 ∧ (∀ i ∈ is, hit i = true → size i ≤ r'.1) ∧ (r'.2 = true ↔ r.2 = true ∨ ∃ i ∈ is, hit i = true) := by
  induction is generalizing r with
  | nil => exact ⟨le_rfl, by simp, by simp⟩
  | cons a is ih =>
    rw [List.foldl_cons]
    by_cases h : hit a
    · rw [if_pos h]
      obtain ⟨h1, h2, h3⟩ := ih (if size a > r.1 then size a else r.1, true)
      have hm : r.1 ≤ (if size a > r.1 then size a else r.1) ∧ size a ≤ (if size a > r.1 then size a else r.1) := by
        split_ifs <;> omega
      refine ⟨hm.1.trans h1, ?_, ?_⟩
      · intro i hi hh
        rcases List.mem_cons.mp hi with rfl | hi
        · exact hm.2.trans h1
        · exact h2 i hi hh
      · rw [h3]; simp [h]
    · rw [if_neg h]
      obtain ⟨h1, h2, h3⟩ := ih r
      refine ⟨h1, ?_, ?_⟩
      · intro i hi hh
        rcases List.mem_cons.mp hi with rfl | hi
        · exact absurd hh h
        · exact h2 i hi hh
      · rw [h3]; simp [h]

omit [AddCommMonoid M] in
/-- The buffers made by `NewManager` are large enough for every pass, and the passes over the kept files are all
(file, box) pairs that were found to intersect, in the order of the file list. -/
theorem C53_capacity (hit : ℕ → ℕ → Bool) (size : ℕ → ℕ → ℤ) (boxes : ℕ) (files : List ℕ) :
    (∀ f i, (f, i) ∈ passes hit boxes (planFiles hit size boxes files).2 → size f i ≤ (planFiles hit size boxes files).1) ∧
    passes hit boxes (planFiles hit size boxes files).2 = passes hit boxes files := by
  unfold planFiles
  have gen : ∀ (fs : List ℕ) (st : ℤ × List ℕ),
      (∀ f i, (f, i) ∈ passes hit boxes st.2 → size f i ≤ st.1) →
      (∀ f i, (f, i) ∈ passes hit boxes (fs.foldl (fun (st : ℤ × List ℕ) f =>
        let r := (List.range boxes).foldl (fun (r : ℤ × Bool) i =>
          if hit f i then (if size f i > r.1 then size f i else r.1, true) else r) (st.1, false)
        (r.1, if r.2 then st.2 ++ [f] else st.2)) st).2 → size f i ≤ (fs.foldl (fun (st : ℤ × List ℕ) f =>
        let r := (List.range boxes).foldl (fun (r : ℤ × Bool) i =>
          if hit f i then (if size f i > r.1 then size f i else r.1, true) else r) (st.1, false)
        (r.1, if r.2 then st.2 ++ [f] else st.2)) st).1) ∧
      passes hit boxes (fs.foldl (fun (st : ℤ × List ℕ) f =>
        let r := (List.range boxes).foldl (fun (r : ℤ × Bool) i =>
          if hit f i then (if size f i > r.1 then size f i else r.1, true) else r) (st.1, false)
        (r.1, if r.2 then st.2 ++ [f] else st.2)) st).2 = passes hit boxes st.2 ++ passes hit boxes fs := by
    intro fs
    induction fs with
    | nil => intro st h; exact ⟨h, by simp [passes]⟩
    | cons f fs ih =>
      intro st h
      simp only [List.foldl_cons]
      obtain ⟨h1, h2, h3⟩ := plan_inner (hit f) (size f) (List.range boxes) (st.1, false)
      set r := (List.range boxes).foldl (fun (r : ℤ × Bool) i =>
          if hit f i then (if size f i > r.1 then size f i else r.1, true) else r) (st.1, false) with hr
      have hpf : passes hit boxes (if r.2 then st.2 ++ [f] else st.2) = passes hit boxes st.2 ++ passes hit boxes [f] := by
        split_ifs with hr2
        · simp [passes]
        · have hnone : (List.range boxes).filter (fun i => hit f i) = [] := by
            rw [List.filter_eq_nil_iff]
            intro i hi hh
            exact hr2 (h3.mpr (Or.inr ⟨i, hi, hh⟩))
          simp [passes, hnone]
      obtain ⟨k1, k2⟩ := ih (r.1, if r.2 then st.2 ++ [f] else st.2) (by
        intro f' i hm
        dsimp only at hm ⊢
        rw [hpf, List.mem_append] at hm
        rcases hm with hm | hm
        · exact (h f' i hm).trans h1
        · simp only [passes, List.flatMap_cons, List.flatMap_nil, List.append_nil, List.mem_map, List.mem_filter,
            Prod.mk.injEq] at hm
          obtain ⟨i', ⟨hi', hh⟩, rfl, rfl⟩ := hm
          exact h2 i' hi' hh)
      refine ⟨k1, ?_⟩
      rw [k2]
      dsimp only
      rw [hpf, List.append_assoc]
      congr 1
      simp [passes]
  have := gen files (0, []) (by simp [passes])
  refine ⟨this.1, ?_⟩
  rw [this.2]
  simp [passes]

/-- Two boxes, three files; the second file meets no box. -/
example : planFiles (fun f i => f = 0 ∨ (f = 2 ∧ i = 1)) (fun f i => 10 * f + i + 1) 2 [0, 1, 2] = (22, [0, 2]) ∧
    passes (fun f i => f = 0 ∨ (f = 2 ∧ i = 1)) 2 [0, 1, 2] = [(0, 0), (0, 1), (2, 1)] := by decide

/-! ## Passes -/

/-- One pass: the image it adds to, the buffer size, the workers' operations on their buffers and `Overlap.Add`.
render/render.go 257-278. -/
structure Pass (M : Type) (m : ℕ) where
  box : ℕ
  size : ℤ
  ops : Fin (m + 1) → List (List M → Option (List M))
  add : List M → List M → Option (List M)

/-- Buffers of the workers and images of the boxes. render/render.go 20-54. -/
structure MState (M : Type) (m : ℕ) where
  bufs : Fin (m + 1) → WBuf M
  grids : ℕ → List M

/-- One pass of the loop in `RenderDensityFromFile`, render/render.go 257-278: prepare the buffers of all workers, run
the workers under any schedule, add. -/
def PassRun (p : Pass M m) (s t : MState M m) : Prop :=
  ∃ bufs1 : Fin (m + 1) → WBuf M, (∀ i, initBuf (s.bufs i) p.size = some (bufs1 i)) ∧
    ∃ n fs, Sched.Steps ⟨p.ops, p.add⟩ n (Sched.start (fun i => (bufs1 i).visible) (s.grids p.box)) fs ∧ fs.final ∧
      t = ⟨fun i => (bufs1 i).put (fs.buf i), Function.update s.grids p.box fs.grid⟩

/-- Passes one after the other. render/render.go 230-237 and 257-278. -/
inductive Runs : List (Pass M m) → MState M m → MState M m → Prop
  | nil (s : MState M m) : Runs [] s s
  | cons {p : Pass M m} {ps : List (Pass M m)} {s t u : MState M m} (h : PassRun p s t) (hs : Runs ps t u) :
      Runs (p :: ps) s u

/-- A buffer of capacity `cap` that starts at the beginning of its array, with any contents. -/
def Worn (cap : ℕ) (b : WBuf M) : Prop := b.off = 0 ∧ b.data.length = cap

/-- Whatever the buffer held before, it is empty when a pass starts. -/
theorem initBuf_spec {cap : ℕ} {b : WBuf M} (h : Worn cap b) {size : ℤ} (h0 : 0 ≤ size) (h1 : size ≤ cap) :
    ∃ b1, initBuf b size = some b1 ∧ b1.visible = List.replicate size.toNat 0 ∧ Worn cap b1 ∧ b1.len = size.toNat := by
  obtain ⟨ho, hl⟩ := h
  have hs : b.slice 0 size = some ⟨b.data, 0, size.toNat⟩ := by
    unfold WBuf.slice
    rw [if_pos ⟨le_rfl, h0, by rw [hl, ho]; simpa using h1⟩, ho]
    simp
  have hsz : size.toNat ≤ cap := by omega
  refine ⟨_, bind_of hs rfl, ?_, ⟨rfl, ?_⟩, rfl⟩
  · simp only [WBuf.clear, WBuf.put, WBuf.visible, List.drop_zero, List.take_zero, List.nil_append, List.map_take]
    rw [List.take_append_of_le_length (by simp [hl, hsz])]
    rw [List.take_of_length_le (by simp)]
    rw [← List.map_take]
    rw [List.eq_replicate_iff]
    refine ⟨by simp [hl, hsz], ?_⟩
    intro x hx
    obtain ⟨_, _, rfl⟩ := List.mem_map.mp hx
    rfl
  · simp only [WBuf.clear, WBuf.put, WBuf.visible, List.drop_zero, List.take_zero, List.nil_append]
    simp [hl]

omit [AddCommMonoid M] in
theorem put_worn {cap : ℕ} {b : WBuf M} (h : Worn cap b) {xs : List M} (hx : xs.length ≤ cap) : Worn cap (b.put xs) := by
  obtain ⟨ho, hl⟩ := h
  refine ⟨ho, ?_⟩
  simp only [WBuf.put, ho, List.take_zero, List.nil_append, zero_add]
  rw [List.length_append, List.length_drop]
  omega

/-- What a pass is supposed to do: started on empty buffers the workers end with buffers that add `G i` to the image. -/
def PassOk (cap : ℕ) (N : ℕ → ℤ) (p : Pass M m) (G : Fin (m + 1) → ℤ → M) : Prop :=
  0 ≤ p.size ∧ p.size ≤ cap ∧ ∀ i, ∃ fin, runOps (p.ops i) (List.replicate p.size.toNat 0) = some fin ∧
    fin.length = p.size.toNat ∧ Adds (N p.box) (p.add fin) (G i)

theorem pass_step {cap : ℕ} {N : ℕ → ℤ} {p : Pass M m} {G : Fin (m + 1) → ℤ → M} (hp : PassOk cap N p G)
    {s : MState M m} (hb : ∀ i, Worn cap (s.bufs i)) {F : ℕ → ℤ → M} (hF : ∀ r, Cells (N r) (s.grids r) (F r)) :
    (∃ t, PassRun p s t) ∧ ∀ t, PassRun p s t → (∀ i, Worn cap (t.bufs i)) ∧
      ∀ r, Cells (N r) (t.grids r) (fun c => F r c + if p.box = r then ∑ i, G i c else 0) := by
  obtain ⟨h0, h1, hfin⟩ := hp
  choose fin hrun hlen hadd using hfin
  have hinit := fun i => initBuf_spec (hb i) h0 h1
  choose b1 e1 hv hw _ using hinit
  have hstart : (fun i => (b1 i).visible) = fun _ : Fin (m + 1) => List.replicate p.size.toNat (0 : M) := funext hv
  constructor
  · obtain ⟨k, t, ht, hf⟩ := C46_terminates ⟨p.ops, p.add⟩ (fun i => (b1 i).visible) fin (N p.box) G
      (fun i => by rw [hv i]; exact hrun i) hadd (s.grids p.box) (F p.box) (hF p.box) 0 _ (.refl _)
    exact ⟨_, b1, e1, _, t, ht, hf, rfl⟩
  · rintro t ⟨b1', e1', n, fs, hs, hf, rfl⟩
    have hbb : b1' = b1 := funext fun i => by
      have := e1' i
      rw [e1 i] at this
      exact (Option.some.inj this).symm
    subst hbb
    obtain ⟨_, hc, _, hbuf, _⟩ := (C46_schedule ⟨p.ops, p.add⟩ (fun i => (b1' i).visible) fin (N p.box) G
      (fun i => by rw [hv i]; exact hrun i) hadd (s.grids p.box) (F p.box) (hF p.box) n fs hs).2.2 hf
    refine ⟨fun i => ?_, fun r => ?_⟩
    · dsimp only
      rw [(hbuf i).2.2]
      exact put_worn (hw i) (by rw [hlen i]; omega)
    · dsimp only
      by_cases hr : p.box = r
      · subst hr
        rw [Function.update_self]
        simpa using hc
      · rw [Function.update_of_ne (Ne.symm hr)]
        simpa [hr] using hF r

/-- **C53**: any sequence of passes, over any files and boxes with any buffer sizes up to the allocated one and under
any schedules, can be carried out and adds to every image exactly the contributions its own passes have when started
on empty buffers. The buffers may hold anything at the start. -/
theorem C53_no_carry_over {ι : Type} (cap : ℕ) (N : ℕ → ℤ) (pass : ι → Pass M m) (G : ι → Fin (m + 1) → ℤ → M)
    (js : List ι) (hp : ∀ j ∈ js, PassOk cap N (pass j) (G j)) (s : MState M m) (hb : ∀ i, Worn cap (s.bufs i))
    (F : ℕ → ℤ → M) (hF : ∀ r, Cells (N r) (s.grids r) (F r)) :
    (∃ t, Runs (js.map pass) s t) ∧ ∀ t, Runs (js.map pass) s t → ∀ r, Cells (N r) (t.grids r) (fun c =>
      F r c + (js.map fun j => if (pass j).box = r then ∑ i, G j i c else 0).sum) := by
  induction js generalizing s F with
  | nil =>
    refine ⟨⟨s, .nil s⟩, ?_⟩
    rintro t h r
    cases h
    simpa using hF r
  | cons j js ih =>
    obtain ⟨⟨t1, h1⟩, hstep⟩ := pass_step (hp j (by simp)) hb hF
    constructor
    · obtain ⟨hb1, hF1⟩ := hstep t1 h1
      obtain ⟨⟨t, ht⟩, _⟩ := ih (fun k hk => hp k (by simp [hk])) t1 hb1 _ hF1
      exact ⟨t, .cons h1 ht⟩
    · rintro t h r
      cases h with
      | cons h2 h3 =>
        obtain ⟨hb1, hF1⟩ := hstep _ h2
        have := (ih (fun k hk => hp k (by simp [hk])) _ hb1 _ hF1).2 t h3 r
        simpa [add_assoc] using this

/-- Fresh buffers are an instance. -/
example (cap : ℕ) : Worn cap (WBuf.new (M := M) cap) := ⟨rfl, List.length_replicate⟩

/-- A pass of one worker with a buffer of 2 out of 5 cells: a point in cell 1, then `domAdd`. -/
example : PassOk (M := ℚ) (m := 0) 5 (fun _ => 2)
    ⟨0, 2, fun _ => [fun b => accum b 1 3], fun b g => do
      let v ← rd b 1
      accum g 1 v⟩ (fun _ c => if c = 1 then 3 else 0) := by
  refine ⟨by norm_num, by norm_num, fun i => ⟨[0, 3], by revert i; decide +kernel, by decide, ?_⟩⟩
  have : ∀ g : List ℚ, (do let v ← rd [0, 3] 1; accum g 1 v) = accum g 1 (3 : ℚ) := fun g => rfl
  simp only [this]
  exact adds_accum (by norm_num) (by norm_num) _

end Verif.Render
