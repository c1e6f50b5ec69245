import Verif.Render.WholeProject

/-!
# Rendering with two kinds of values

The values of samples are only ever added. When a relation between values of two types is kept by addition, rendering
with one type of values keeps it from the values of the samples to the image, under every schedule.
-/

set_option autoImplicit false

namespace Verif.Render

open Verif.Go Verif.Geom

variable {M N : Type} [Add M] [Add N]

/-- When the first computation does not panic, neither does the second, and the results are related. -/
def Follows {α β : Type} (r : α → β → Prop) (a : Option α) (b : Option β) : Prop :=
  ∀ x, a = some x → ∃ y, b = some y ∧ r x y

theorem Follows.some {α β : Type} {r : α → β → Prop} {x : α} {y : β} (h : r x y) : Follows r (some x) (some y) := by
  rintro z hz
  cases hz
  exact ⟨y, rfl, h⟩

theorem Follows.bind {α β γ δ : Type} {r : α → β → Prop} {s : γ → δ → Prop} {a : Option α} {b : Option β}
    {f : α → Option γ} {g : β → Option δ} (h : Follows r a b) (hfg : ∀ x y, r x y → Follows s (f x) (g y)) :
    Follows s (a.bind f) (b.bind g) := by
  intro z hz
  cases a with
  | none => cases hz
  | some x =>
    obtain ⟨y, rfl, hr⟩ := h x rfl
    exact hfg x y hr z hz

theorem Follows.bind_same {α γ δ : Type} {s : γ → δ → Prop} {a : Option α} {f : α → Option γ} {g : α → Option δ}
    (hfg : ∀ x, Follows s (f x) (g x)) : Follows s (a.bind f) (a.bind g) := by
  cases a with
  | none => intro z hz; cases hz
  | some x => exact hfg x

theorem Follows.ite {α β : Type} {r : α → β → Prop} {c : Prop} [Decidable c] {a a' : Option α} {b b' : Option β}
    (h : Follows r a b) (h' : Follows r a' b') : Follows r (if c then a else a') (if c then b else b') := by
  by_cases e : c
  · rwa [if_pos e, if_pos e]
  · rwa [if_neg e, if_neg e]

theorem follows_iterFrom {σ τ : Type} {r : σ → τ → Prop} {f : ℤ → σ → Option σ} {g : ℤ → τ → Option τ}
    (h : ∀ i s t, r s t → Follows r (f i s) (g i t)) (n : ℕ) :
    ∀ (i : ℤ) (s : σ) (t : τ), r s t → Follows r (iterFrom f n i s) (iterFrom g n i t) := by
  induction n with
  | zero => intro i s t hr; exact Follows.some hr
  | succ n ih => intro i s t hr; exact (h i s t hr).bind fun x y hxy => ih (i + 1) x y hxy

theorem follows_forRange {σ τ : Type} {r : σ → τ → Prop} {f : ℤ → σ → Option σ} {g : ℤ → τ → Option τ}
    (h : ∀ i s t, r s t → Follows r (f i s) (g i t)) (lo hi : ℤ) {s : σ} {t : τ} (hr : r s t) :
    Follows r (forRange lo hi f s) (forRange lo hi g t) := follows_iterFrom h _ _ _ _ hr

theorem follows_forStep {σ τ : Type} {r : σ → τ → Prop} {f : ℤ → σ → Option σ} {g : ℤ → τ → Option τ}
    (h : ∀ i s t, r s t → Follows r (f i s) (g i t)) (lo hi jump : ℤ) {s : σ} {t : τ} (hr : r s t) :
    Follows r (forStep lo hi jump f s) (forStep lo hi jump g t) :=
  follows_forRange (f := fun k => f (lo + k * jump)) (g := fun k => g (lo + k * jump)) (fun _ s t hr => h _ s t hr) _ _ hr

variable {R : M → N → Prop}

theorem follows_rd {M N : Type} {R : M → N → Prop} {xs : List M} {ys : List N} (h : List.Forall₂ R xs ys) (i : ℤ) :
    Follows R (rd xs i) (rd ys i) := by
  intro x hx
  rw [rd_some_iff] at hx
  obtain ⟨h0, hx⟩ := hx
  obtain ⟨hl, e⟩ := List.getElem?_eq_some_iff.mp hx
  have hl' : i.toNat < ys.length := by rw [← h.length_eq]; exact hl
  refine ⟨ys[i.toNat], rd_some_iff.mpr ⟨h0, List.getElem?_eq_getElem hl'⟩, ?_⟩
  rw [← e]
  exact List.Forall₂.get h hl hl'

theorem follows_wr {M N : Type} {R : M → N → Prop} {xs : List M} {ys : List N} (h : List.Forall₂ R xs ys) (i : ℤ) {v : M}
    {w : N} (hv : R v w) : Follows (List.Forall₂ R) (wr xs i v) (wr ys i w) := by
  unfold wr
  rw [h.length_eq]
  by_cases hc : 0 ≤ i ∧ i.toNat < ys.length
  · rw [if_pos hc, if_pos hc]
    apply Follows.some
    rw [List.forall₂_iff_get]
    refine ⟨by simpa using h.length_eq, fun k h1 h2 => ?_⟩
    simp only [List.get_eq_getElem, List.getElem_set]
    split_ifs
    · exact hv
    · exact List.Forall₂.get h (by simpa using h1) (by simpa using h2)
  · rw [if_neg hc]
    intro x hx
    cases hx

/-- The relation is kept by addition. -/
def Additive (R : M → N → Prop) : Prop := ∀ a b c d, R a b → R c d → R (a + c) (b + d)

theorem follows_accum (hR : Additive R) {xs : List M} {ys : List N} (h : List.Forall₂ R xs ys) (i : ℤ) {v : M} {w : N}
    (hv : R v w) : Follows (List.Forall₂ R) (accum xs i v) (accum ys i w) :=
  (follows_rd h i).bind fun _ _ hxy => follows_wr h i (hR _ _ _ _ hxy hv)

theorem follows_domAdd (hR : Additive R) {buf grid : List M} {buf' grid' : List N} (hb : List.Forall₂ R buf buf')
    (hg : List.Forall₂ R grid grid') : Follows (List.Forall₂ R) (domAdd buf grid) (domAdd buf' grid') := by
  unfold domAdd
  rw [hb.length_eq]
  refine follows_forRange (fun i s t hst => ?_) _ _ hg
  exact (follows_rd hb i).bind fun _ _ hxy => follows_accum hR hst i hxy

theorem follows_seg2Add (hR : Additive R) (bufCb domCb : CellBounds) (cells proj : ℤ) {buf grid : List M}
    {buf' grid' : List N} (hb : List.Forall₂ R buf buf') (hg : List.Forall₂ R grid grid') :
    Follows (List.Forall₂ R) (seg2Add bufCb domCb cells proj buf grid) (seg2Add bufCb domCb cells proj buf' grid') := by
  unfold seg2Add
  rcases projDims proj with ⟨iDim, jDim, kDim⟩
  dsimp only
  refine follows_forRange ?_ _ _ hg
  intro j s t hst
  refine Follows.ite (.some hst) ?_
  refine follows_forRange ?_ _ _ hst
  intro i s t hst
  refine Follows.ite (.some hst) ?_
  exact (follows_rd hb _).bind fun _ _ hxy => follows_accum hR hst _ hxy

theorem follows_seg3Add (hR : Additive R) (bufCb domCb : CellBounds) (cells : ℤ) {buf grid : List M}
    {buf' grid' : List N} (hb : List.Forall₂ R buf buf') (hg : List.Forall₂ R grid grid') :
    Follows (List.Forall₂ R) (seg3Add bufCb domCb cells buf grid) (seg3Add bufCb domCb cells buf' grid') := by
  unfold seg3Add
  dsimp only
  refine follows_forRange ?_ _ _ hg
  intro k s t hst
  refine Follows.ite (.some hst) ?_
  refine follows_forRange ?_ _ _ hst
  intro j s t hst
  refine Follows.ite (.some hst) ?_
  refine follows_forRange ?_ _ _ hst
  intro i s t hst
  refine Follows.ite (.some hst) ?_
  exact (follows_rd hb _).bind fun _ _ hxy => follows_accum hR hst _ hxy

theorem follows_segSub (hR : Additive R) (mc : MC) {val : Vec → M} {val' : Vec → N} (hv : ∀ w, R (val w) (val' w))
    (out w : List Vec) {xs : List M} {ys : List N} (h : List.Forall₂ R xs ys) :
    Follows (List.Forall₂ R) (segSub mc val out w xs) (segSub mc val' out w ys) := by
  unfold segSub seg3Interpolate
  dsimp only
  refine follows_forStep ?_ _ _ _ h
  intro i s t hst
  refine Follows.bind_same fun pt => ?_
  exact follows_accum hR hst _ (hv _)

theorem follows_domSub (hR : Additive R) (mc : MC) {val : Vec → M} {val' : Vec → N} (hv : ∀ w, R (val w) (val' w))
    (out w : List Vec) {xs : List M} {ys : List N} (h : List.Forall₂ R xs ys) :
    Follows (List.Forall₂ R) (domSub mc val out w xs) (domSub mc val' out w ys) := by
  unfold domSub dom3InterpolateWith
  dsimp only
  refine follows_forStep ?_ _ _ _ h
  intro i s t hst
  refine Follows.bind_same fun pt => ?_
  refine Follows.ite (Follows.ite (Follows.ite ?_ (.some hst)) (.some hst)) (.some hst)
  exact follows_accum hR hst _ (hv _)

theorem follows_seg2Sub (hR : Additive R) (mc : MC) (proj : ℤ) {val : Vec → M} {val' : Vec → N}
    (hv : ∀ w, R (val w) (val' w)) (out w : List Vec) {xs : List M} {ys : List N} (h : List.Forall₂ R xs ys) :
    Follows (List.Forall₂ R) (seg2Sub mc proj val out w xs) (seg2Sub mc proj val' out w ys) := by
  unfold seg2Sub seg2InterpolateWith
  rcases projDims proj with ⟨iDim, jDim, kDim⟩
  dsimp only
  refine follows_forStep ?_ _ _ _ h
  intro i s t hst
  refine Follows.bind_same fun pt => ?_
  exact Follows.ite (follows_accum hR hst _ (hv _)) (.some hst)

theorem follows_dom2Sub (hR : Additive R) (mc : MC) (proj : ℤ) {val : Vec → M} {val' : Vec → N}
    (hv : ∀ w, R (val w) (val' w)) (out w : List Vec) {xs : List M} {ys : List N} (h : List.Forall₂ R xs ys) :
    Follows (List.Forall₂ R) (dom2Sub mc proj val out w xs) (dom2Sub mc proj val' out w ys) := by
  unfold dom2Sub dom2InterpolateWith
  rcases projDims proj with ⟨iDim, jDim, kDim⟩
  dsimp only
  refine follows_forStep ?_ _ _ _ h
  intro i s t hst
  refine Follows.bind_same fun pt => ?_
  refine Follows.ite (Follows.ite (Follows.ite ?_ (.some hst)) (.some hst)) (.some hst)
  exact follows_accum hR hst _ (hv _)

/-! ## Workers -/

/-- Two states of an interpolator that differ only in the values of cells. -/
structure MCState.Same {M N : Type} (R : M → N → Prop) (s : MCState M) (t : MCState N) : Prop where
  tet : s.tet = t.tet
  vtet : s.vtet = t.vtet
  vecBuf : s.vecBuf = t.vecBuf
  wbuf : s.wbuf = t.wbuf
  draws : s.draws = t.draws
  cells : List.Forall₂ R s.cells t.cells

theorem follows_mcVisit {M N : Type} {R : M → N → Prop} (mc : MC) (reqVel : Bool)
    {sub : List Vec → List Vec → List M → Option (List M)}
    {sub' : List Vec → List Vec → List N → Option (List N)}
    (hsub : ∀ out w xs ys, List.Forall₂ R xs ys → Follows (List.Forall₂ R) (sub out w xs) (sub' out w ys)) (pick : ℕ → ℤ)
    (xs vs : List Vec) (v : TetVisit) {s : MCState M} {t : MCState N} (h : s.Same R t) :
    Follows (MCState.Same R) (mcVisit mc reqVel sub pick xs vs v s) (mcVisit mc reqVel sub' pick xs vs v t) := by
  obtain ⟨tet, vtet, vecBuf, wbuf, draws, cells⟩ := s
  obtain ⟨tet', vtet', vecBuf', wbuf', draws', cells'⟩ := t
  obtain ⟨h1, h2, h3, h4, h5, h6⟩ := h
  dsimp only at h1 h2 h3 h4 h5 h6
  subst h1 h2 h3 h4 h5
  unfold mcVisit
  refine Follows.bind_same fun idxs => Follows.bind_same fun c0 => Follows.bind_same fun c1 => Follows.bind_same fun c2 =>
    Follows.bind_same fun c3 => Follows.bind_same fun vt => Follows.ite (.some ⟨rfl, rfl, rfl, rfl, rfl, h6⟩) ?_
  refine Follows.bind_same fun unit => Follows.bind_same fun vb => Follows.bind_same fun wb => ?_
  exact (hsub _ _ _ _ h6).bind fun x y hxy => .some ⟨rfl, rfl, rfl, rfl, rfl, hxy⟩

/-! ## Schedules -/

/-- Two states of a pass that differ only in values. -/
structure Sched.Same {M N σ τ : Type} {m : ℕ} (R : M → N → Prop) (S : σ → τ → Prop) (s : Sched M σ m) (t : Sched N τ m) :
    Prop where
  spawned : s.spawned = t.spawned
  pc : s.pc = t.pc
  buf : ∀ i, S (s.buf i) (t.buf i)
  sent : s.sent = t.sent
  chan : s.chan = t.chan
  received : s.received = t.received
  grid : List.Forall₂ R s.grid t.grid

/-- Two programs that keep the relations. -/
structure Job.Same {M N σ τ : Type} {m : ℕ} (R : M → N → Prop) (S : σ → τ → Prop) (J : Job M σ m) (K : Job N τ m) : Prop where
  ops : ∀ i, List.Forall₂ (fun f g => ∀ s t, S s t → Follows S (f s) (g t)) (J.ops i) (K.ops i)
  add : ∀ s t, S s t → ∀ x y, List.Forall₂ R x y → Follows (List.Forall₂ R) (J.add s x) (K.add t y)

theorem Sched.same_step {M N σ τ : Type} {m : ℕ} {R : M → N → Prop} {S : σ → τ → Prop} {J : Job M σ m} {K : Job N τ m}
    (hJ : J.Same R S K) {s s' : Sched M σ m} {t : Sched N τ m} (h : s.Same R S t) (hs : Step J s s') :
    ∃ t', Step K t t' ∧ s'.Same R S t' := by
  obtain ⟨sp, pc, buf, sent, chan, rec, grid⟩ := s
  obtain ⟨sp', pc', buf', sent', chan', rec', grid'⟩ := t
  obtain ⟨h1, h2, h3, h4, h5, h6, h7⟩ := h
  dsimp only at h1 h2 h3 h4 h5 h6 h7
  subst h1 h2 h4 h5 h6
  cases hs with
  | spawn hlt => exact ⟨_, .spawn _ hlt, rfl, rfl, h3, rfl, rfl, rfl, h7⟩
  | work i op b ha hop hb =>
    dsimp only at hop hb
    obtain ⟨hl, e⟩ := List.getElem?_eq_some_iff.mp hop
    have hl' : pc i < (K.ops i).length := by rw [← (hJ.ops i).length_eq]; exact hl
    have hrel := List.Forall₂.get (hJ.ops i) hl hl'
    simp only [List.get_eq_getElem] at hrel
    rw [e] at hrel
    obtain ⟨b', hb', hS⟩ := hrel _ _ (h3 i) b hb
    refine ⟨_, .work _ i _ b' ha (List.getElem?_eq_getElem hl') hb', rfl, rfl, fun j => ?_, rfl, rfl, rfl, h7⟩
    dsimp only
    by_cases ej : j = i
    · subst ej
      rw [Function.update_self, Function.update_self]
      exact hS
    · rw [Function.update_of_ne ej, Function.update_of_ne ej]
      exact h3 j
  | send i ha hd hs hc =>
    refine ⟨_, .send _ i ha ?_ hs hc, rfl, rfl, h3, rfl, rfl, rfl, h7⟩
    rw [← (hJ.ops i).length_eq]
    exact hd
  | recv i rest g hm hr hc hg =>
    obtain ⟨g', hg', hG⟩ := hJ.add _ _ (h3 i) _ _ h7 g hg
    exact ⟨_, .recv _ i rest g' hm hr hc hg', rfl, rfl, h3, rfl, rfl, rfl, hG⟩

theorem Sched.same_steps {M N σ τ : Type} {m : ℕ} {R : M → N → Prop} {S : σ → τ → Prop} {J : Job M σ m} {K : Job N τ m}
    (hJ : J.Same R S K) {n : ℕ} {s s' : Sched M σ m} {t : Sched N τ m} (h : s.Same R S t) (hs : Steps J n s s') :
    ∃ t', Steps K n t t' ∧ s'.Same R S t' := by
  induction hs with
  | refl => exact ⟨t, .refl t, h⟩
  | tail _ hst ih =>
    obtain ⟨t1, h1, h2⟩ := ih h
    obtain ⟨t2, h3, h4⟩ := same_step hJ h2 hst
    exact ⟨t2, .tail h1 h3, h4⟩

/-! ## Images -/

/-- Two passes that differ only in values. -/
structure SegRun.Same {M N : Type} (R : M → N → Prop) (p : SegRun M) (q : SegRun N) : Prop where
  mc : p.mc = q.mc
  direct : p.direct = q.direct
  xs : p.xs = q.xs
  vs : p.vs = q.vs
  pick : p.pick = q.pick
  init : ∀ i, (p.init i).Same R (q.init i)
  val : ∀ w, R (p.val w) (q.val w)

theorem forall₂_map_same {α β γ : Type} {P : β → γ → Prop} (f : α → β) (g : α → γ) (l : List α) (h : ∀ a, P (f a) (g a)) :
    List.Forall₂ P (l.map f) (l.map g) := by
  induction l with
  | nil => exact .nil
  | cons a l ih => exact .cons (h a) ih

theorem SegRun.same_job (hR : Additive R) {p : SegRun M} {q : SegRun N} (h : p.Same R q) (reqVel : Bool) (m : ℕ) :
    (p.job reqVel m).Same R (MCState.Same R) (q.job reqVel m) := by
  obtain ⟨mc, direct, xs, vs, pick, init, val⟩ := p
  obtain ⟨mc', direct', xs', vs', pick', init', val'⟩ := q
  obtain ⟨h1, h2, h3, h4, h5, h6, h7⟩ := h
  dsimp only at h1 h2 h3 h4 h5 h6 h7
  subst h1 h2 h3 h4 h5
  constructor
  · intro i
    unfold SegRun.job
    refine forall₂_map_same _ _ _ fun v s t hst => follows_mcVisit _ _ (fun out w xs ys hxy => ?_) _ _ _ _ hst
    unfold SegRun.sub
    cases direct
    · exact follows_segSub hR _ h7 _ _ hxy
    · exact follows_domSub hR _ h7 _ _ hxy
  · intro s t hst x y hxy
    change Follows _ (SegRun.add _ s.cells x) (SegRun.add _ t.cells y)
    unfold SegRun.add
    cases direct
    · exact follows_seg3Add hR _ _ _ hst.cells hxy
    · exact follows_domAdd hR hst.cells hxy

theorem SegRun.same_job2 (hR : Additive R) (proj : ℤ) {p : SegRun M} {q : SegRun N} (h : p.Same R q) (reqVel : Bool) (m : ℕ) :
    (p.job2 proj reqVel m).Same R (MCState.Same R) (q.job2 proj reqVel m) := by
  obtain ⟨mc, direct, xs, vs, pick, init, val⟩ := p
  obtain ⟨mc', direct', xs', vs', pick', init', val'⟩ := q
  obtain ⟨h1, h2, h3, h4, h5, h6, h7⟩ := h
  dsimp only at h1 h2 h3 h4 h5 h6 h7
  subst h1 h2 h3 h4 h5
  constructor
  · intro i
    unfold SegRun.job2
    refine forall₂_map_same _ _ _ fun v s t hst => follows_mcVisit _ _ (fun out w xs ys hxy => ?_) _ _ _ _ hst
    unfold SegRun.sub2
    cases direct
    · exact follows_seg2Sub hR _ _ h7 _ _ hxy
    · exact follows_dom2Sub hR _ _ h7 _ _ hxy
  · intro s t hst x y hxy
    change Follows _ (SegRun.add2 proj _ s.cells x) (SegRun.add2 proj _ t.cells y)
    unfold SegRun.add2
    cases direct
    · exact follows_seg2Add hR _ _ _ _ hst.cells hxy
    · exact follows_domAdd hR hst.cells hxy

theorem Rendered.same (hR : Additive R) {reqVel : Bool} {m : ℕ} {ps : List (SegRun M)} {qs : List (SegRun N)}
    (hp : List.Forall₂ (SegRun.Same R) ps qs) {grid out : List M} {grid' : List N} (hg : List.Forall₂ R grid grid')
    (h : Rendered reqVel m ps grid out) : ∃ out', Rendered reqVel m qs grid' out' ∧ List.Forall₂ R out out' := by
  induction hp generalizing grid grid' with
  | nil => cases h; exact ⟨grid', .nil _, hg⟩
  | cons hpq _ ih =>
    cases h with
    | cons hst hf hs =>
      obtain ⟨t, h1, h2⟩ := Sched.same_steps (SegRun.same_job hR hpq reqVel m)
        (t := Sched.start (fun i => _) grid') ⟨rfl, rfl, fun i => hpq.init i.val, rfl, rfl, rfl, hg⟩ hst
      obtain ⟨out', h3, h4⟩ := ih h2.grid hs
      exact ⟨out', .cons h1 (by unfold Sched.final; rw [← h2.received]; exact hf) h3, h4⟩

theorem Rendered2.same (hR : Additive R) {proj : ℤ} {reqVel : Bool} {m : ℕ} {ps : List (SegRun M)} {qs : List (SegRun N)}
    (hp : List.Forall₂ (SegRun.Same R) ps qs) {grid out : List M} {grid' : List N} (hg : List.Forall₂ R grid grid')
    (h : Rendered2 proj reqVel m ps grid out) :
    ∃ out', Rendered2 proj reqVel m qs grid' out' ∧ List.Forall₂ R out out' := by
  induction hp generalizing grid grid' with
  | nil => cases h; exact ⟨grid', .nil _, hg⟩
  | cons hpq _ ih =>
    cases h with
    | cons hst hf hs =>
      obtain ⟨t, h1, h2⟩ := Sched.same_steps (SegRun.same_job2 hR proj hpq reqVel m)
        (t := Sched.start (fun i => _) grid') ⟨rfl, rfl, fun i => hpq.init i.val, rfl, rfl, rfl, hg⟩ hst
      obtain ⟨out', h3, h4⟩ := ih h2.grid hs
      exact ⟨out', .cons h1 (by unfold Sched.final; rw [← h2.received]; exact hf) h3, h4⟩

end Verif.Render
