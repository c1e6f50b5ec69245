import Verif.Main.OutputModel
import Verif.Main.Basic
import Verif.Io.Config
import Verif.Io.Grid

/-!
# From bounds files to image files: C116
-/

set_option autoImplicit false

namespace Verif.Main

open Verif.Go Verif.Io Verif.Geom Verif.Render

/-! ## Specification -/

/-- An entry of a bounds file, with its name. -/
inductive Entry
  | ball (name : List Char) (b : BallConfig)
  | box (name : List Char) (b : BoxConfig)

/-- The name of an entry. -/
def Entry.name : Entry → List Char
  | .ball n _ => n
  | .box n _ => n

/-- The entries of a bounds file. -/
def BoundsFile.entries (f : BoundsFile) : List Entry :=
  f.balls.map (fun e => .ball e.1 e.2) ++ f.boxes.map fun e => .box e.1 e.2

/-- Legal entries. -/
def Entry.Ok (L : ℚ) : Entry → Prop
  | .ball _ b => b.radius ≠ 0 ∧ (0 ≤ b.x ∧ b.x < L) ∧ (0 ≤ b.y ∧ b.y < L) ∧ (0 ≤ b.z ∧ b.z < L) ∧ 0 ≤ b.radiusMultiplier
  | .box _ b => BoxOk b L ∧ ∃ r, AxisName b.projectionAxis r

/-- The radius of the ball of an entry: a multiplier that was not set counts as one. -/
def ballRadius (b : BallConfig) : ℚ := b.radius * if b.radiusMultiplier = 0 then 1 else b.radiusMultiplier

/-- `c` is the region of an entry: the box itself, or a cube with twice the radius that contains the ball, up to periods. -/
def Entry.Shown (L : ℚ) (c : BoxConfig) : Entry → Prop
  | .ball n b => c.name = n ∧ c.projectionAxis = [] ∧ c.xWidth = 2 * ballRadius b ∧ c.yWidth = 2 * ballRadius b ∧
      c.zWidth = 2 * ballRadius b ∧
      ∀ px py pz, |px - b.x| ≤ ballRadius b → |py - b.y| ≤ ballRadius b → |pz - b.z| ≤ ballRadius b →
        (∃ k : ℤ, c.x ≤ px + k * L ∧ px + k * L ≤ c.x + c.xWidth) ∧
        (∃ k : ℤ, c.y ≤ py + k * L ∧ py + k * L ≤ c.y + c.yWidth) ∧
        (∃ k : ℤ, c.z ≤ pz + k * L ∧ pz + k * L ≤ c.z + c.zWidth)
  | .box n b => c.name = n ∧ c.x = b.x ∧ c.y = b.y ∧ c.z = b.z ∧ c.xWidth = b.xWidth ∧ c.yWidth = b.yWidth ∧
      c.zWidth = b.zWidth ∧ AxisName b.projectionAxis c.projectionAxis

/-- What a directory holds under a name after a list of writes: the last one counts. -/
def Content (files : List (List Char × List Byte)) (name : List Char) (bytes : List Byte) : Prop :=
  ∃ before after, files = before ++ (name, bytes) :: after ∧ ∀ p ∈ after, p.1 ≠ name

/-! ## Reading the entries -/

theorem foldlM_collect {α β : Type} (p : α → Bool) (g : α → β) (l : List α) (acc : List β) :
    l.foldlM (m := Option) (fun acc e => if p e then some (acc ++ [g e]) else none) acc =
      if l.all p then some (acc ++ l.map g) else none := by
  induction l generalizing acc with
  | nil => simp
  | cons a l ih =>
    rw [List.foldlM_cons]
    by_cases h : p a = true
    · rw [if_pos h]
      change l.foldlM _ (acc ++ [g a]) = _
      rw [ih]
      simp [h]
    · rw [if_neg h]
      simp [h]

theorem readBounds_eq (L : ℚ) (f : BoundsFile) :
    readBounds L f = if (f.balls.all fun e => (e.2.checkInit e.1 L).2) ∧ (f.boxes.all fun e => (e.2.checkInit e.1 L).2) then
      some (f.balls.map (fun e => (e.2.checkInit e.1 L).1.box L) ++ f.boxes.map fun e => (e.2.checkInit e.1 L).1)
      else none := by
  have h1 := foldlM_collect (fun e : List Char × BallConfig => (e.2.checkInit e.1 L).2)
    (fun e => (e.2.checkInit e.1 L).1.box L) f.balls []
  have h2 := foldlM_collect (fun e : List Char × BoxConfig => (e.2.checkInit e.1 L).2)
    (fun e => (e.2.checkInit e.1 L).1) f.boxes
  unfold readBounds
  rw [show addBall L = (fun acc (e : List Char × BallConfig) => if (e.2.checkInit e.1 L).2 then
      some (acc ++ [(e.2.checkInit e.1 L).1.box L]) else none) from rfl, h1,
    show addBox L = (fun acc (e : List Char × BoxConfig) => if (e.2.checkInit e.1 L).2 then
      some (acc ++ [(e.2.checkInit e.1 L).1]) else none) from rfl]
  by_cases hb : (f.balls.all fun e => (e.2.checkInit e.1 L).2) = true
  · rw [if_pos hb]
    change f.boxes.foldlM _ ([] ++ f.balls.map _) = _
    rw [h2]
    by_cases hx : (f.boxes.all fun e => (e.2.checkInit e.1 L).2) = true
    · rw [if_pos hx, if_pos ⟨hb, hx⟩, List.nil_append]
    · rw [if_neg hx, if_neg (fun h => hx h.2)]
  · rw [if_neg hb, if_neg (fun h => hb h.1)]
    rfl

theorem ball_ok (n : List Char) (b : BallConfig) (L : ℚ) : (b.checkInit n L).2 = true ↔ (Entry.ball n b).Ok L := by
  unfold BallConfig.checkInit Entry.Ok
  dsimp only
  split_ifs with h1 h2 h3 h4 h5 h6
  · simp [h1]
  · simp only [Bool.false_eq_true, false_iff]; rintro ⟨-, h, -⟩; rcases h2 with h2 | h2 <;> linarith [h.1, h.2]
  · simp only [Bool.false_eq_true, false_iff]; rintro ⟨-, -, h, -⟩; rcases h3 with h2 | h2 <;> linarith [h.1, h.2]
  · simp only [Bool.false_eq_true, false_iff]; rintro ⟨-, -, -, h, -⟩; rcases h4 with h2 | h2 <;> linarith [h.1, h.2]
  · rw [not_or, not_le, not_lt] at h2 h3 h4
    simp only [true_iff]
    exact ⟨h1, ⟨h2.2, h2.1⟩, ⟨h3.2, h3.1⟩, ⟨h4.2, h4.1⟩, h5.ge⟩
  · simp only [Bool.false_eq_true, false_iff]; rintro ⟨-, -, -, -, h⟩; linarith
  · rw [not_or, not_le, not_lt] at h2 h3 h4
    simp only [true_iff]
    exact ⟨h1, ⟨h2.2, h2.1⟩, ⟨h3.2, h3.1⟩, ⟨h4.2, h4.1⟩, not_lt.mp h6⟩

theorem ball_checked (n : List Char) (b : BallConfig) (L : ℚ) (h : (b.checkInit n L).2 = true) :
    (b.checkInit n L).1 = { b with name := n, radiusMultiplier := if b.radiusMultiplier = 0 then 1 else b.radiusMultiplier } := by
  revert h
  unfold BallConfig.checkInit
  dsimp only
  split_ifs <;> simp

theorem ball_shown (n : List Char) (b : BallConfig) (L : ℚ) (h : (b.checkInit n L).2 = true) :
    (Entry.ball n b).Shown L ((b.checkInit n L).1.box L) := by
  have e := ball_checked n b L h
  have hc := C70_contains (b.checkInit n L).1 L
  rw [e] at hc ⊢
  refine ⟨rfl, rfl, rfl, rfl, rfl, hc⟩

theorem box_shown (n : List Char) (b : BoxConfig) (L : ℚ) (h : (b.checkInit n L).2 = true) :
    (Entry.box n b).Shown L (b.checkInit n L).1 := by
  obtain ⟨h1, r, h2⟩ := (C69_checkInit_partial b n L).1.mp h
  rw [(C69_checkInit_partial b n L).2 r h1 h2]
  exact ⟨rfl, rfl, rfl, rfl, rfl, rfl, rfl, h2⟩

theorem readBounds_some (L : ℚ) (f : BoundsFile) : (∃ cs, readBounds L f = some cs) ↔ ∀ e ∈ f.entries, e.Ok L := by
  have key : ((f.balls.all fun e => (e.2.checkInit e.1 L).2) = true ∧ (f.boxes.all fun e => (e.2.checkInit e.1 L).2) = true) ↔
      ∀ e ∈ f.entries, e.Ok L := by
    simp only [List.all_eq_true, BoundsFile.entries, List.mem_append, List.mem_map]
    constructor
    · rintro ⟨h1, h2⟩ e (⟨p, hp, rfl⟩ | ⟨p, hp, rfl⟩)
      · exact (ball_ok _ _ _).mp (h1 p hp)
      · exact (C69_checkInit_partial _ _ _).1.mp (h2 p hp)
    · intro h
      exact ⟨fun p hp => (ball_ok _ _ _).mpr (h _ (.inl ⟨p, hp, rfl⟩)),
        fun p hp => (C69_checkInit_partial _ _ _).1.mpr (h _ (.inr ⟨p, hp, rfl⟩))⟩
  rw [readBounds_eq, ← key]
  split_ifs with h
  · exact ⟨fun _ => h, fun _ => ⟨_, rfl⟩⟩
  · exact ⟨fun ⟨_, e⟩ => by simp at e, fun h' => absurd h' h⟩

theorem readBounds_shown (L : ℚ) (f : BoundsFile) (cs : List BoxConfig) (h : readBounds L f = some cs) :
    List.Forall₂ (fun e c => Entry.Shown L c e) f.entries cs := by
  rw [readBounds_eq] at h
  split_ifs at h with hc
  obtain ⟨h1, h2⟩ := hc
  rw [List.all_eq_true] at h1 h2
  cases h
  refine List.rel_append ?_ ?_
  · rw [List.forall₂_map_left_iff, List.forall₂_map_right_iff, List.forall₂_same]
    exact fun p hp => ball_shown _ _ _ (h1 p hp)
  · rw [List.forall₂_map_left_iff, List.forall₂_map_right_iff, List.forall₂_same]
    exact fun p hp => box_shown _ _ _ (h2 p hp)

theorem readAll_cons (L : ℚ) (f : BoundsFile) (fs : List BoundsFile) (acc : List BoxConfig) :
    fs.foldlM (m := Option) (fun acc f => do
      let boxes ← readBounds L f
      some (acc ++ boxes)) acc = (readAllBounds L fs).map (acc ++ ·) := by
  unfold readAllBounds
  suffices h : ∀ (fs : List BoundsFile) (acc acc' : List BoxConfig), fs.foldlM (m := Option) (fun acc f => do
      let boxes ← readBounds L f
      some (acc ++ boxes)) (acc ++ acc') = (fs.foldlM (m := Option) (fun acc f => do
      let boxes ← readBounds L f
      some (acc ++ boxes)) acc').map (acc ++ ·) by
    have := h fs acc []
    rwa [List.append_nil] at this
  intro fs
  induction fs with
  | nil => intro acc acc'; rfl
  | cons f fs ih =>
    intro acc acc'
    rw [List.foldlM_cons, List.foldlM_cons]
    cases readBounds L f with
    | none => rfl
    | some b =>
      change fs.foldlM _ (acc ++ acc' ++ b) = Option.map _ (fs.foldlM _ (acc' ++ b))
      rw [List.append_assoc, ih]

theorem readAllBounds_cons (L : ℚ) (f : BoundsFile) (fs : List BoundsFile) :
    readAllBounds L (f :: fs) = (readBounds L f).bind fun b => (readAllBounds L fs).map (b ++ ·) := by
  conv_lhs => unfold readAllBounds
  rw [List.foldlM_cons]
  cases readBounds L f with
  | none => rfl
  | some b =>
    change fs.foldlM _ ([] ++ b) = _
    rw [List.nil_append, readAll_cons L f]
    rfl

/-- C116: bounds files are accepted exactly if all their entries are legal, and each entry gives one box with its name and
its region. -/
theorem C116_bounds (L : ℚ) (fs : List BoundsFile) :
    ((∃ cs, readAllBounds L fs = some cs) ↔ ∀ f ∈ fs, ∀ e ∈ f.entries, e.Ok L) ∧
    ∀ cs, readAllBounds L fs = some cs →
      List.Forall₂ (fun e c => Entry.Shown L c e) (fs.flatMap BoundsFile.entries) cs := by
  induction fs with
  | nil =>
    refine ⟨⟨fun _ => by simp, fun _ => ⟨[], rfl⟩⟩, fun cs h => ?_⟩
    cases (show readAllBounds L [] = some [] from rfl).symm.trans h
    exact .nil
  | cons f fs ih =>
    rw [readAllBounds_cons]
    constructor
    · rw [List.forall_mem_cons, ← ih.1, ← readBounds_some]
      cases readBounds L f with
      | none => simp
      | some b =>
        cases readAllBounds L fs with
        | none => simp
        | some cs => simp
    · intro cs h
      cases hb : readBounds L f with
      | none => rw [hb] at h; cases h
      | some b =>
        cases hc : readAllBounds L fs with
        | none => rw [hb, hc] at h; cases h
        | some cs' =>
          rw [hb, hc] at h
          cases h
          rw [List.flatMap_cons]
          exact List.rel_append (readBounds_shown L f b hb) (ih.2 cs' hc)

/-- A bounds file with a ball and a projected box. -/
def exBoundsFile (n : List Char) : BoundsFile :=
  ⟨[("halo".toList, ⟨5, 5, 5, 2, 0, []⟩)], [(n, ⟨1, 2, 3, 4, 5, 6, " z".toList, []⟩)]⟩

example : ∀ f ∈ [exBoundsFile "b".toList, exBoundsFile "c".toList], ∀ e ∈ f.entries, e.Ok 10 := by
  refine (C116_bounds 10 _).1.mp ?_
  rw [← Option.isSome_iff_exists]
  decide +kernel

/-- C116: the boxes do not depend on the order in which the maps of a bounds file are visited, only the order of the boxes
does. -/
theorem C116_order (L : ℚ) (f g : BoundsFile) (hb : f.balls.Perm g.balls) (hx : f.boxes.Perm g.boxes) :
    (∃ cs cs', readBounds L f = some cs ∧ readBounds L g = some cs' ∧ cs.Perm cs') ∨
      (readBounds L f = none ∧ readBounds L g = none) := by
  rw [readBounds_eq, readBounds_eq, hb.all_eq, hx.all_eq]
  split_ifs
  · exact .inl ⟨_, _, rfl, rfl, (hb.map _).append (hx.map _)⟩
  · exact .inr ⟨rfl, rfl⟩

example : (⟨[], [("a".toList, ⟨1, 2, 3, 4, 5, 6, [], []⟩), ("b".toList, ⟨2, 2, 3, 4, 5, 6, [], []⟩)]⟩ : BoundsFile).boxes.Perm
    (⟨[], [("b".toList, ⟨2, 2, 3, 4, 5, 6, [], []⟩), ("a".toList, ⟨1, 2, 3, 4, 5, 6, [], []⟩)]⟩ : BoundsFile).boxes :=
  .swap _ _ _

/-! ## Boxes -/

/-- The number of particles does not depend on what earlier boxes left in the configuration. -/
theorem particles_again (con con' : RenderCon) (box : BoxCon) (L : ℚ)
    (h : ∃ d, con' = { con with projectionDepth := d } ∧ (con.autoParticles = false → d = con.projectionDepth)) :
    (particles con' box L).map Prod.fst = (particles con box L).map Prod.fst ∧
    ∀ r, particles con' box L = some r →
      ∃ d, r.2 = { con with projectionDepth := d } ∧ (con.autoParticles = false → d = con.projectionDepth) := by
  obtain ⟨d, rfl, hd⟩ := h
  obtain ⟨ip, tp, pa, pd, sl, auto⟩ := con
  cases auto with
  | false =>
    have := hd rfl
    change d = pd at this
    subst this
    refine ⟨rfl, fun r hr => ⟨d, ?_, fun _ => rfl⟩⟩
    change (if d > 0 then _ else _ : Option (ℤ × RenderCon)) = _ at hr
    split_ifs at hr
    · generalize totalPixels _ box L = t at hr
      cases t with
      | none => cases hr
      | some p => cases hr; rfl
    · cases hr; rfl
  | true =>
    have hauto : ∀ d, particles ⟨ip, tp, pa, d, sl, true⟩ box L = (totalPixels ⟨ip, tp, pa, pd, sl, true⟩ box L).bind fun cells =>
        if projected box (L / cells) > 0 then
          some (⌈5 * ((cells : ℚ) / 500) ^ 3 * ((sl : ℚ) / 1) ^ 3 * (1 / projected box (L / cells))⌉,
            ⟨ip, tp, pa, projected box (L / cells), sl, true⟩)
        else some (pa, ⟨ip, tp, pa, projected box (L / cells), sl, true⟩) := by
      intro d
      have ht : ∀ d, totalPixels ⟨ip, tp, pa, d, sl, true⟩ box L = totalPixels ⟨ip, tp, pa, pd, sl, true⟩ box L := fun d => rfl
      unfold particles
      simp only [if_true]
      rw [ht]
      cases hp : totalPixels ⟨ip, tp, pa, pd, sl, true⟩ box L with
      | none => rfl
      | some p =>
        change ((if projected box (L / p) > 0 then _ else _ : Option (ℤ × RenderCon))) = _
        rw [ht, hp]
        rfl
    constructor
    · change (particles ⟨ip, tp, pa, d, sl, true⟩ box L).map Prod.fst = (particles ⟨ip, tp, pa, pd, sl, true⟩ box L).map Prod.fst
      rw [hauto, hauto]
    · intro r hr
      change particles ⟨ip, tp, pa, d, sl, true⟩ box L = some r at hr
      rw [hauto] at hr
      cases hp : totalPixels ⟨ip, tp, pa, pd, sl, true⟩ box L with
      | none => rw [hp] at hr; cases hr
      | some p =>
        rw [hp] at hr
        refine ⟨projected box (L / p), ?_, fun h => by simp at h⟩
        simp only [Option.bind_some] at hr
        split_ifs at hr <;> cases hr <;> rfl

/-- `b` is the box which the renderer makes for the region `c`. -/
def BoxOf (con : RenderCon) (q : ℤ) (L : ℚ) (c : BoxConfig) (b : RBox) : Prop :=
  ∃ cells pts con', totalPixels con (BoxConfig.con c) L = some cells ∧ particles con (BoxConfig.con c) L = some (pts, con') ∧
    newBox L pts cells q c = some b

theorem makeBoxes (con : RenderCon) (q : ℤ) (L : ℚ) (cs : List BoxConfig) (h : ∀ c ∈ cs, ∃ b, BoxOf con q L c b)
    (con' : RenderCon) (bs : List RBox)
    (hcon : ∃ d, con' = { con with projectionDepth := d } ∧ (con.autoParticles = false → d = con.projectionDepth)) :
    ∃ con'' bs', cs.foldlM (makeBox L q) (con', bs) = some (con'', bs ++ bs') ∧ List.Forall₂ (BoxOf con q L) cs bs' ∧
      ∃ d, con'' = { con with projectionDepth := d } ∧ (con.autoParticles = false → d = con.projectionDepth) := by
  induction cs generalizing con' bs with
  | nil => exact ⟨con', [], by simp, .nil, hcon⟩
  | cons c cs ih =>
    rw [List.forall_mem_cons] at h
    obtain ⟨⟨b, cells, pts, con1, h1, h2, h3⟩, hcs⟩ := h
    obtain ⟨k1, k2⟩ := particles_again con con' (BoxConfig.con c) L hcon
    have h1' : totalPixels con' (BoxConfig.con c) L = some cells := by
      obtain ⟨d, rfl, -⟩ := hcon
      exact h1
    rw [h2] at k1
    obtain ⟨r, hr, e⟩ := Option.map_eq_some_iff.mp k1
    obtain ⟨con'', bs', e1, e2, e3⟩ := ih hcs r.2 (bs ++ [b]) (k2 r hr)
    refine ⟨con'', b :: bs', ?_, .cons ⟨cells, pts, con1, h1, h2, h3⟩ e2, e3⟩
    rw [List.foldlM_cons, show makeBox L q (con', bs) c = some (r.2, bs ++ [b]) from
      bind_of h1' (bind_of hr (bind_of (by rw [e]; exact h3) rfl))]
    change cs.foldlM _ (r.2, bs ++ [b]) = _
    rw [e1]
    simp

theorem mapM_all {α β : Type} (f : α → Option β) (l : List α) (h : ∀ a ∈ l, ∃ b, f a = some b) :
    ∃ l', l.mapM f = some l' ∧ List.Forall₂ (fun a b => f a = some b) l l' := by
  induction l with
  | nil => exact ⟨[], rfl, .nil⟩
  | cons a l ih =>
    rw [List.forall_mem_cons] at h
    obtain ⟨⟨b, hb⟩, hl⟩ := h
    obtain ⟨l', e, hf⟩ := ih hl
    refine ⟨b :: l', ?_, .cons hb hf⟩
    rw [List.mapM_cons]
    exact bind_of hb (bind_of e rfl)

/-- The boxes of accepted entries can be made: the axis is one of the three, and no region is wider than the simulation
box if the number of pixels of the image is given. -/
theorem boxOf_exists (con : RenderCon) (q : ℤ) (L : ℚ) (c : BoxConfig) (hq : 0 ≤ q ∧ q < 5)
    (ha : c.projectionAxis = [] ∨ c.projectionAxis = ['X'] ∨ c.projectionAxis = ['Y'] ∨ c.projectionAxis = ['Z'])
    (hw : 0 < con.imagePixels → c.xWidth ≤ L ∧ c.yWidth ≤ L ∧ c.zWidth ≤ L) : ∃ b, BoxOf con q L c b := by
  obtain ⟨cells, h1⟩ : ∃ cells, totalPixels con (BoxConfig.con c) L = some cells := by
    unfold totalPixels
    by_cases hp : con.imagePixels > 0
    · rw [if_pos hp]
      dsimp only
      rw [if_neg]
      · exact ⟨_, rfl⟩
      · intro hm
        obtain ⟨w1, w2, w3⟩ := hw hp
        obtain ⟨e, -⟩ := maxWidth_spec (BoxConfig.con c)
        have hm' : L < maxWidth (BoxConfig.con c) := hm
        rcases e with e | e | e <;> rw [e] at hm' <;> simp only [BoxConfig.con] at hm' <;> linarith
    · rw [if_neg hp]
      exact ⟨_, rfl⟩
  obtain ⟨r, h2⟩ : ∃ r, particles con (BoxConfig.con c) L = some r := by
    obtain ⟨ip, tp, pa, pd, sl, auto⟩ := con
    have h1' : ∀ d, totalPixels ⟨ip, tp, pa, d, sl, auto⟩ (BoxConfig.con c) L = some cells := fun d => h1
    unfold particles
    cases auto with
    | false =>
      simp only [Bool.false_eq_true, if_false]
      change ∃ r, (if pd > 0 then _ else _ : Option (ℤ × RenderCon)) = _
      rw [h1']
      split_ifs
      · exact ⟨_, rfl⟩
      · exact ⟨_, rfl⟩
    | true =>
      simp only [if_true]
      rw [h1']
      change ∃ r, (if projected (BoxConfig.con c) (L / cells) > 0 then _ else _ : Option (ℤ × RenderCon)) = _
      rw [h1']
      by_cases hd : projected (BoxConfig.con c) (L / cells) > 0
      · rw [if_pos hd]
        exact ⟨_, rfl⟩
      · rw [if_neg hd]
        exact ⟨_, rfl⟩
  obtain ⟨b, h3⟩ : ∃ b, newBox L r.1 cells q c = some b := by
    obtain ⟨can, hcan⟩ : ∃ can, canProject q = some can := by
      unfold canProject
      rw [if_neg (by omega)]
      split_ifs
      · exact ⟨_, rfl⟩
      · exact ⟨_, rfl⟩
      · omega
    unfold newBox
    rcases ha with ha | ha
    · have hp : c.isProjection = false := by simp [BoxConfig.isProjection, ha]
      simp only [hp, Bool.false_eq_true, if_false]
      exact ⟨_, rfl⟩
    · have hp : c.isProjection = true := by
        rcases ha with ha | ha | ha <;> simp [BoxConfig.isProjection, ha]
      obtain ⟨a, e⟩ : ∃ a, axisNumber c.projectionAxis = some a := by
        rcases ha with ha | ha | ha <;> rw [ha] <;> exact ⟨_, rfl⟩
      simp only [hp, if_true, hcan, true_and, e]
      change ∃ b, (if can = true then _ else _) = some b
      split_ifs
      · exact ⟨_, rfl⟩
      · exact ⟨_, rfl⟩
  exact ⟨b, cells, r.1, r.2, h1, h2, h3⟩

/-- `bytes` is the file with the image of the region `c`, box number `k`. -/
def ImageOf (enc : ℝ → Word 8) (con : RenderCon) (q : ℤ) (L : ℚ) (cosmo : Cosmology) (vals : ℕ → RBox → Finalized) (k : ℕ)
    (c : BoxConfig) (bytes : List Byte) : Prop :=
  ∃ b, BoxOf con q L c b ∧ writeBuffer (word q) (vals k b)
    (newCosmoInfo enc (cosmo.h100 * 100) cosmo.omegaM cosmo.omegaL cosmo.z L)
    (newRenderInfo con.particles con.totalPixels con.subsampleLength c.projectionAxis)
    (newLocationInfo enc b.cb.origin b.cb.width b.cellWidth) = .ok bytes

/-- The regions of an entry that are not wider than the simulation box. -/
def Entry.Fits (L : ℚ) : Entry → Prop
  | .ball _ b => 2 * ballRadius b ≤ L
  | .box _ b => b.xWidth ≤ L ∧ b.yWidth ≤ L ∧ b.zWidth ≤ L

theorem writeBuffer_ok (quantity : Word 8) (buf : Finalized) (cosmo : CosmoInfo) (render : RenderInfo) (loc : LocationInfo)
    (hb : buf ≠ .neither) : ∃ bytes, writeBuffer quantity buf cosmo render loc = .ok bytes := by
  obtain ⟨flag, -, e⟩ := writeBuffer_eq quantity buf cosmo render loc hb
  exact ⟨_, e⟩

theorem shown_axis {L : ℚ} {c : BoxConfig} {e : Entry} (h : e.Shown L c) :
    c.projectionAxis = [] ∨ c.projectionAxis = ['X'] ∨ c.projectionAxis = ['Y'] ∨ c.projectionAxis = ['Z'] := by
  cases e with
  | ball n b => exact .inl h.2.1
  | box n b =>
    obtain ⟨-, -, -, -, -, -, -, a, b, core, -, h⟩ := h
    rcases h with h | h | h | h <;> simp [h.2]

theorem shown_name {L : ℚ} {c : BoxConfig} {e : Entry} (h : e.Shown L c) : c.name = e.name := by
  cases e <;> exact h.1

theorem shown_fits {L : ℚ} {c : BoxConfig} {e : Entry} (h : e.Shown L c) (hf : e.Fits L) :
    c.xWidth ≤ L ∧ c.yWidth ≤ L ∧ c.zWidth ≤ L := by
  cases e with
  | ball n b =>
    obtain ⟨-, -, h1, h2, h3, -⟩ := h
    rw [h1, h2, h3]
    exact ⟨hf, hf, hf⟩
  | box n b =>
    obtain ⟨-, -, -, -, h1, h2, h3, -⟩ := h
    rw [h1, h2, h3]
    exact hf

theorem forall₂_left {α β : Type} {R : α → β → Prop} {l : List α} {l' : List β} (h : List.Forall₂ R l l') {b : β} (hb : b ∈ l') :
    ∃ a ∈ l, R a b := by
  obtain ⟨i, hi, rfl⟩ := List.getElem_of_mem hb
  exact ⟨l[i]'(by rw [h.length_eq]; exact hi), List.getElem_mem _, (List.forall₂_iff_get.mp h).2 i _ _⟩

/-- The files of a run: one per entry, in order. -/
theorem renderMain_eq (enc : ℝ → Word 8) (con : RenderCon) (pre app : List Char) (quantity : String) (q : ℤ) (L : ℚ)
    (cosmo : Cosmology) (bounds : List BoundsFile) (vals : ℕ → RBox → Finalized)
    (hq : Io.quantityFromString quantity = some q) (hv : ∀ k b, vals k b ≠ .neither)
    (hok : ∀ f ∈ bounds, ∀ e ∈ f.entries, e.Ok L)
    (hfit : 0 < con.imagePixels → ∀ f ∈ bounds, ∀ e ∈ f.entries, e.Fits L) :
    ∃ cs files, readAllBounds L bounds = some cs ∧
      List.Forall₂ (fun e c => Entry.Shown L c e) (bounds.flatMap BoundsFile.entries) cs ∧
      renderMain enc con pre app quantity L cosmo bounds vals = some files ∧ files.length = cs.length ∧
      ∀ k (hk : k < files.length) (hk' : k < cs.length), files[k].1 = imageName pre cs[k].name app ∧
        ImageOf enc con q L cosmo vals k cs[k] files[k].2 := by
  obtain ⟨cs, hcs⟩ := (C116_bounds L bounds).1.mpr hok
  have hsh := (C116_bounds L bounds).2 cs hcs
  have hqr : 0 ≤ q ∧ q < 5 := by
    revert hq
    unfold Io.quantityFromString
    split_ifs <;> intro hq <;> cases hq <;> norm_num
  have hbox : ∀ c ∈ cs, ∃ b, BoxOf con q L c b := by
    intro c hc
    obtain ⟨e, he, hs⟩ := forall₂_left hsh hc
    refine boxOf_exists con q L c hqr (shown_axis hs) (fun hp => shown_fits hs ?_)
    obtain ⟨f, hf, he⟩ := List.mem_flatMap.mp he
    exact hfit hp f hf e he
  obtain ⟨con', bs, hb, hbs, d, hd, -⟩ := makeBoxes con q L cs hbox con [] ⟨con.projectionDepth, rfl, fun _ => rfl⟩
  rw [List.nil_append] at hb
  have hlen := hbs.length_eq
  obtain ⟨files, hf, hfs⟩ := mapM_all (fun e : (BoxConfig × RBox) × ℕ =>
    writeImage enc con' pre app q L cosmo e.1.1 e.1.2 (vals e.2 e.1.2)) (cs.zip bs).zipIdx (by
      rintro ⟨⟨c, b⟩, k⟩ -
      obtain ⟨bytes, e⟩ := writeBuffer_ok (word q) (vals k b)
        (newCosmoInfo enc (cosmo.h100 * 100) cosmo.omegaM cosmo.omegaL cosmo.z L)
        (newRenderInfo con'.particles con'.totalPixels con'.subsampleLength c.projectionAxis)
        (newLocationInfo enc b.cb.origin b.cb.width b.cellWidth) (hv k b)
      refine ⟨(imageName pre c.name app, bytes), ?_⟩
      unfold writeImage
      dsimp only
      rw [e])
  have hl : files.length = cs.length := by
    rw [← hfs.length_eq]
    simp [hlen]
  refine ⟨cs, files, hcs, hsh, bind_of hcs (bind_of hq (bind_of hb hf)), hl, ?_⟩
  intro k hk hk'
  have hz : k < (cs.zip bs).zipIdx.length := by simpa [← hlen] using hk'
  have := (List.forall₂_iff_get.mp hfs).2 k hz hk
  simp only [List.get_eq_getElem, List.getElem_zipIdx, List.getElem_zip, Nat.zero_add] at this
  unfold writeImage at this
  dsimp only at this
  have hB := (List.forall₂_iff_get.mp hbs).2 k hk' (by omega)
  simp only [List.get_eq_getElem] at hB
  split at this
  · next bytes e =>
    have := Option.some.inj this
    rw [← this]
    refine ⟨rfl, bs[k], hB, ?_⟩
    rw [hd] at e
    exact e
  · cases this

/-- C116: a run of the renderer leaves one image file per entry of the bounds files, under the name of the entry, with the
image of its region, if no two entries have the same name. Missing: entries with the same name. -/
theorem C116_files_partial (enc : ℝ → Word 8) (con : RenderCon) (pre app : List Char) (quantity : String) (q : ℤ) (L : ℚ)
    (cosmo : Cosmology) (bounds : List BoundsFile) (vals : ℕ → RBox → Finalized)
    (hq : Io.quantityFromString quantity = some q) (hv : ∀ k b, vals k b ≠ .neither)
    (hok : ∀ f ∈ bounds, ∀ e ∈ f.entries, e.Ok L)
    (hfit : 0 < con.imagePixels → ∀ f ∈ bounds, ∀ e ∈ f.entries, e.Fits L)
    (hname : ((bounds.flatMap BoundsFile.entries).map Entry.name).Nodup) :
    ∃ files, renderMain enc con pre app quantity L cosmo bounds vals = some files ∧
      files.length = (bounds.flatMap BoundsFile.entries).length ∧
      ∀ k (hk : k < (bounds.flatMap BoundsFile.entries).length), ∃ c bytes,
        (bounds.flatMap BoundsFile.entries)[k].Shown L c ∧ ImageOf enc con q L cosmo vals k c bytes ∧
        Content files (pre ++ (bounds.flatMap BoundsFile.entries)[k].name ++ app ++ ".gtet".toList) bytes := by
  obtain ⟨cs, files, -, hsh, hf, hl, h⟩ := renderMain_eq enc con pre app quantity q L cosmo bounds vals hq hv hok hfit
  have hl' := hsh.length_eq
  refine ⟨files, hf, by omega, fun k hk => ?_⟩
  have hS := (List.forall₂_iff_get.mp hsh).2
  simp only [List.get_eq_getElem] at hS
  obtain ⟨h1, h2⟩ := h k (by omega) (by omega)
  refine ⟨cs[k], files[k].2, hS k hk (by omega), h2, files.take k, files.drop (k + 1), ?_, ?_⟩
  · rw [← shown_name (hS k hk (by omega))]
    change _ = _ ++ (imageName pre cs[k].name app, files[k].2) :: _
    rw [← h1]
    simp
  · intro p hp
    obtain ⟨i, hi, rfl⟩ := List.getElem_of_mem hp
    rw [List.length_drop] at hi
    rw [List.getElem_drop, (h (k + 1 + i) (by omega) (by omega)).1,
      shown_name (hS (k + 1 + i) (by omega) (by omega))]
    intro e
    have e' : (bounds.flatMap BoundsFile.entries)[k + 1 + i].name = (bounds.flatMap BoundsFile.entries)[k].name := by
      simpa [imageName] using e
    rw [List.nodup_iff_injective_get] at hname
    have := @hname ⟨k + 1 + i, by rw [List.length_map]; omega⟩ ⟨k, by rw [List.length_map]; omega⟩ (by simpa using e')
    simp only [Fin.mk.injEq] at this
    omega

example : ∃ files, renderMain (fun _ => 7) ⟨100, 0, 0, 0, 1, true⟩ "p_".toList [] "Density" 10 ⟨0, 3 / 10, 7 / 10, 7 / 10⟩
    [exBoundsFile "b".toList] (fun _ b => .scalar (List.replicate b.len.toNat 0)) = some files ∧ files.length = 2 := by
  obtain ⟨files, h1, h2, -⟩ := C116_files_partial (fun _ => 7) ⟨100, 0, 0, 0, 1, true⟩ "p_".toList [] "Density" 0 10
    ⟨0, 3 / 10, 7 / 10, 7 / 10⟩ [exBoundsFile "b".toList] (fun _ b => .scalar (List.replicate b.len.toNat 0)) (by decide)
    (fun _ _ h => by cases h)
    ((C116_bounds 10 _).1.mp (by rw [← Option.isSome_iff_exists]; decide +kernel))
    (by
      intro _ f hf e he
      simp only [List.mem_singleton] at hf
      subst hf
      simp only [exBoundsFile, BoundsFile.entries, List.map_cons, List.map_nil, List.cons_append, List.nil_append,
        List.mem_cons, List.not_mem_nil, or_false] at he
      rcases he with rfl | rfl
      · norm_num [Entry.Fits, ballRadius]
      · norm_num [Entry.Fits])
    (by decide)
  exact ⟨files, h1, h2⟩

/-- C116 fails for entries with the same name, such as a ball and a box of one bounds file, or boxes of two: there are fewer
image files than entries, because the later image replaces the earlier one. -/
theorem C116_name_counterexample (enc : ℝ → Word 8) (con : RenderCon) (pre app : List Char) (quantity : String) (q : ℤ) (L : ℚ)
    (cosmo : Cosmology) (bounds : List BoundsFile) (vals : ℕ → RBox → Finalized)
    (hq : Io.quantityFromString quantity = some q) (hv : ∀ k b, vals k b ≠ .neither)
    (hok : ∀ f ∈ bounds, ∀ e ∈ f.entries, e.Ok L)
    (hfit : 0 < con.imagePixels → ∀ f ∈ bounds, ∀ e ∈ f.entries, e.Fits L) (i j : ℕ) (hij : i < j)
    (hj : j < (bounds.flatMap BoundsFile.entries).length)
    (hname : (bounds.flatMap BoundsFile.entries)[i].name = (bounds.flatMap BoundsFile.entries)[j].name) :
    ∃ files, renderMain enc con pre app quantity L cosmo bounds vals = some files ∧
      (files.map Prod.fst).dedup.length < (bounds.flatMap BoundsFile.entries).length := by
  obtain ⟨cs, files, -, hsh, hf, hl, h⟩ := renderMain_eq enc con pre app quantity q L cosmo bounds vals hq hv hok hfit
  have hl' := hsh.length_eq
  have hS := (List.forall₂_iff_get.mp hsh).2
  simp only [List.get_eq_getElem] at hS
  refine ⟨files, hf, ?_⟩
  have hle := (List.dedup_sublist (files.map Prod.fst)).length_le
  rw [List.length_map] at hle
  rcases Nat.lt_or_ge (files.map Prod.fst).dedup.length (files.map Prod.fst).length with hlt | hge
  · rw [List.length_map] at hlt; omega
  · exfalso
    have e := (List.dedup_sublist (files.map Prod.fst)).eq_of_length_le hge
    have hn := List.nodup_dedup (files.map Prod.fst)
    rw [e, List.nodup_iff_injective_get] at hn
    have := @hn ⟨i, by rw [List.length_map]; omega⟩ ⟨j, by rw [List.length_map]; omega⟩ (by
      simp only [List.get_eq_getElem, List.getElem_map]
      rw [(h i (by omega) (by omega)).1, (h j (by omega) (by omega)).1, shown_name (hS i (by omega) (by omega)),
        shown_name (hS j (by omega) (by omega)), hname])
    simp only [Fin.mk.injEq] at this
    omega

example : ((exBoundsFile "halo".toList).entries.map Entry.name) = ["halo".toList, "halo".toList] := by decide

end Verif.Main
