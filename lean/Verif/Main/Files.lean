import Verif.Main.FilesModel
import Verif.Io.Sheet

/-!
# C140, C141: every pass is made with the data of its own file
-/

set_option autoImplicit false

namespace Verif.Main.Files

open Verif.Io Verif.Go

/-! ## What the files contain -/

/-- A sheet: byte order of its file, header, positions, velocities. -/
structure Sheet where
  o : Order
  h : SheetHeader
  xs : List V3
  vs : List V3

/-- The header announces the number of vectors there are. -/
def Sheet.Ok (s : Sheet) : Prop := s.h.gridCount.toInt = s.xs.length ∧ s.xs.length = s.vs.length

/-- The file of a sheet. -/
def Sheet.file (s : Sheet) : DirEntry := some (sheetBytes s.o s.h s.xs s.vs)

/-- What a pass over a sheet is to be given. -/
def Sheet.data (vel : Bool) (s : Sheet) : Loaded := ⟨withCount s.h, s.xs, if vel then s.vs else []⟩

/-- The boxes which a sheet meets. -/
def hits (tests : List (SheetHeader → Bool)) (s : Sheet) : List ℕ :=
  (List.range tests.length).filter fun i => (tests[i]?.map fun t => t (withCount s.h)).getD false

theorem mem_hits {tests : List (SheetHeader → Bool)} {s : Sheet} {i : ℕ} :
    i ∈ hits tests s ↔ ∃ t, tests[i]? = some t ∧ t (withCount s.h) = true := by
  unfold hits
  rw [List.mem_filter, List.mem_range]
  constructor
  · rintro ⟨h1, h2⟩
    rw [List.getElem?_eq_getElem h1] at h2
    exact ⟨_, List.getElem?_eq_getElem h1, h2⟩
  · rintro ⟨t, h1, h2⟩
    rw [h1]
    exact ⟨(List.getElem?_eq_some_iff.mp h1).1, h2⟩

theorem openHeader_file (s : Sheet) : openHeader s.file = .ok (withCount s.h) := by
  obtain ⟨r, e, _⟩ := readSheetHeader_ok s.o s.h (s.xs.flatMap (encV s.o) ++ s.vs.flatMap (encV s.o))
  show readSheetHeaderAt _ = _
  unfold readSheetHeaderAt
  exact Res.bind_ok e rfl

theorem openPositions_file (sys : Order) {s : Sheet} (hs : s.Ok) {buf : List V3} (hb : buf.length = s.xs.length) :
    openPositions sys s.file buf = .ok s.xs := readPositions_ok sys s.o s.h s.xs s.vs buf hs.1 hb

theorem openVelocities_file (sys : Order) {s : Sheet} (hs : s.Ok) {buf : List V3} (hb : buf.length = s.xs.length) :
    openVelocities sys s.file buf = .ok s.vs :=
  readVelocities_ok sys s.o s.h s.xs s.vs buf hs.2 (by rw [hs.1, hs.2]) (by rw [hb, hs.2])

theorem loadFile_file (sys : Order) (vel : Bool) {s : Sheet} (hs : s.Ok) {m : Loaded} (hx : m.xs.length = s.xs.length)
    (hv : m.vs.length = if vel then s.xs.length else 0) : loadFile sys vel m s.file = .ok (s.data vel) := by
  unfold loadFile
  refine Res.bind_ok (openHeader_file s) (Res.bind_ok (openPositions_file sys hs hx) ?_)
  cases vel with
  | true => exact Res.bind_ok (openVelocities_file sys hs hv) rfl
  | false =>
    have h0 : m.vs = [] := List.length_eq_zero_iff.mp hv
    refine Res.bind_ok rfl ?_
    rw [h0]
    rfl

/-! ## Folds -/

theorem foldlM_cons_ok {α β : Type} {f : β → α → Res β} {b b' : β} {a : α} {l : List α} (h : f b a = .ok b') :
    (a :: l).foldlM f b = l.foldlM f b' := by
  rw [List.foldlM_cons, h]
  rfl

theorem plan_ok (tests : List (SheetHeader → Bool)) (ss : List Sheet) (acc : List (DirEntry × List ℕ)) :
    (ss.map Sheet.file).foldlM (planFile tests) acc =
      .ok (acc ++ (ss.filter fun s => hits tests s ≠ []).map fun s => (s.file, hits tests s)) := by
  induction ss generalizing acc with
  | nil => rw [List.filter_nil, List.map_nil, List.map_nil, List.append_nil]; rfl
  | cons s ss ih =>
    rw [List.map_cons]
    have h1 : planFile tests acc s.file = .ok (if hits tests s = [] then acc else acc ++ [(s.file, hits tests s)]) := by
      unfold planFile
      exact Res.bind_ok (openHeader_file s) rfl
    rw [foldlM_cons_ok h1, ih]
    by_cases h : hits tests s = []
    · rw [if_pos h, List.filter_cons_of_neg (by simpa using h)]
    · rw [if_neg h, List.filter_cons_of_pos (by simpa using h), List.map_cons, List.append_assoc, List.singleton_append]

theorem passes_ok (sys : Order) (vel : Bool) (tests : List (SheetHeader → Bool)) (n : ℕ) (ss : List Sheet)
    (hs : ∀ s ∈ ss, s.Ok ∧ s.xs.length = n) (m : Loaded) (hx : m.xs.length = n) (hv : m.vs.length = if vel then n else 0)
    (acc : List (ℕ × Loaded)) :
    ∃ m', (ss.map fun s => (s.file, hits tests s)).foldlM (renderFile sys vel) (m, acc) =
      .ok (m', acc ++ ss.flatMap fun s => (hits tests s).map fun i => (i, s.data vel)) := by
  induction ss generalizing m acc with
  | nil => exact ⟨m, by rw [List.flatMap_nil, List.append_nil]; rfl⟩
  | cons s ss ih =>
    obtain ⟨h1, h2⟩ := hs s List.mem_cons_self
    have h3 : renderFile sys vel (m, acc) (s.file, hits tests s) =
        .ok (s.data vel, acc ++ (hits tests s).map fun i => (i, s.data vel)) := by
      unfold renderFile
      exact Res.bind_ok (loadFile_file sys vel h1 (by rw [hx, h2]) (by rw [hv, h2])) rfl
    obtain ⟨m', e⟩ := ih (fun s' h' => hs s' (List.mem_cons_of_mem _ h')) (s.data vel) h2 (by
      cases vel with
      | true => exact h1.2.symm.trans h2
      | false => rfl) (acc ++ (hits tests s).map fun i => (i, s.data vel))
    refine ⟨m', ?_⟩
    rw [List.map_cons, foldlM_cons_ok h3, e, List.flatMap_cons, List.append_assoc]

theorem makeVecs_ok {w : Word 8} {n : ℕ} (h : w.toInt = n) : makeVecs w = .ok (List.replicate n ⟨0, 0, 0⟩) := by
  unfold makeVecs
  rw [h, if_neg (by omega), Int.toNat_natCast]

theorem flatMap_filter_hits {β : Type} (tests : List (SheetHeader → Bool)) (f : Sheet → ℕ → β) (ss : List Sheet) :
    ((ss.filter fun s => hits tests s ≠ []).flatMap fun s => (hits tests s).map (f s)) =
      ss.flatMap fun s => (hits tests s).map (f s) := by
  induction ss with
  | nil => rfl
  | cons s ss ih =>
    by_cases h : hits tests s = []
    · rw [List.filter_cons_of_neg (by simpa using h), ih, List.flatMap_cons, h, List.map_nil, List.nil_append]
    · rw [List.filter_cons_of_pos (by simpa using h), List.flatMap_cons, List.flatMap_cons, ih]

/-- **C140.** A directory of complete sheets: every box is rendered with every sheet it meets, in the order of the directory,
and the workers see the header, the positions and (if the quantity needs them) the velocities of that sheet. Sheets may
have different byte orders; the ones that are needed must have the number of vectors of the first. Missing from the full
claim: files that are not complete (`C140_stale_counterexample`, `C140_own_partial`). -/
theorem C140_files_partial (sys : Order) (vel : Bool) (mk : SheetHeader → Res (List (SheetHeader → Bool))) (s₀ : Sheet)
    (ss : List Sheet) (tests : List (SheetHeader → Bool)) (hmk : mk (withCount s₀.h) = .ok tests) (hne : tests ≠ [])
    (h₀ : s₀.Ok) (hs : ∀ s ∈ ss, hits tests s ≠ [] → s.Ok ∧ s.xs.length = s₀.xs.length) :
    renderRun sys vel mk ((s₀ :: ss).map Sheet.file) =
      .ok ((s₀ :: ss).flatMap fun s => (hits tests s).map fun i => (i, s.data vel)) := by
  obtain ⟨m', e⟩ := passes_ok sys vel tests s₀.xs.length ((s₀ :: ss).filter fun s => hits tests s ≠ []) (by
      intro s h
      rw [List.mem_filter, List.mem_cons] at h
      obtain ⟨rfl | h, h'⟩ := h
      · exact ⟨h₀, rfl⟩
      · exact hs s h (by simpa using h')) ⟨withCount s₀.h, List.replicate s₀.xs.length ⟨0, 0, 0⟩,
        if vel then List.replicate s₀.xs.length ⟨0, 0, 0⟩ else []⟩ (List.length_replicate ..) (by
      cases vel with
      | true => exact List.length_replicate ..
      | false => rfl) []
  rw [flatMap_filter_hits, List.nil_append] at e
  have hm : newManager vel tests ((s₀ :: ss).map Sheet.file) =
      .ok (⟨withCount s₀.h, List.replicate s₀.xs.length ⟨0, 0, 0⟩,
        if vel then List.replicate s₀.xs.length ⟨0, 0, 0⟩ else []⟩,
        ((s₀ :: ss).filter fun s => hits tests s ≠ []).map fun s => (s.file, hits tests s)) := by
    unfold newManager
    refine Res.bind_ok (by rw [plan_ok, List.nil_append]) (Res.bind_ok (a := s₀.file) rfl
      (Res.bind_ok (openHeader_file s₀) (Res.bind_ok (makeVecs_ok h₀.1) ?_)))
    rw [if_neg hne]
  unfold renderRun
  refine Res.bind_ok (a := s₀.file) rfl (Res.bind_ok (a := withCount s₀.h) ?_ (Res.bind_ok hmk (Res.bind_ok hm ?_)))
  · unfold setupHeader
    rw [openHeader_file]
  · exact Res.bind_ok e rfl

/-- A sheet with one vector, in the given byte order. -/
def oneSheet (o : Order) (x v : V3) : Sheet :=
  ⟨o, ⟨0, 0, 0, 0, 0, 1, 1, 1, 1, 0, 1, 0, 0, x, ⟨0, 0, 0⟩, v, ⟨0, 0, 0⟩⟩, [x], [v]⟩

theorem oneSheet_ok (o : Order) (x v : V3) : (oneSheet o x v).Ok := by
  unfold Sheet.Ok oneSheet
  exact ⟨by show BitVec.toInt (1 : Word 8) = ((1 : ℕ) : ℤ); decide, rfl⟩

/-- Three sheets, two boxes: the first box meets the first two sheets, the second box the last two. -/
example : renderRun .le true (fun _ => .ok [fun h => h.origin.x ≤ 2, fun h => 2 ≤ h.origin.x])
      ([oneSheet .le ⟨1, 5, 5⟩ ⟨7, 0, 0⟩, oneSheet .be ⟨2, 5, 5⟩ ⟨8, 0, 0⟩, oneSheet .le ⟨3, 5, 5⟩ ⟨9, 0, 0⟩].map Sheet.file) =
    .ok [(0, (oneSheet .le ⟨1, 5, 5⟩ ⟨7, 0, 0⟩).data true), (0, (oneSheet .be ⟨2, 5, 5⟩ ⟨8, 0, 0⟩).data true),
      (1, (oneSheet .be ⟨2, 5, 5⟩ ⟨8, 0, 0⟩).data true), (1, (oneSheet .le ⟨3, 5, 5⟩ ⟨9, 0, 0⟩).data true)] := by
  rw [C140_files_partial .le true _ _ _ _ rfl (by simp) (oneSheet_ok _ _ _) (by
    intro s hs _
    simp only [List.mem_cons, List.not_mem_nil, or_false] at hs
    rcases hs with rfl | rfl
    · exact ⟨oneSheet_ok _ _ _, rfl⟩
    · exact ⟨oneSheet_ok _ _ _, rfl⟩)]
  decide +kernel

/-! ## Arbitrary directories -/

/-- Inversion of a sequence. -/
theorem bind_inv {α β : Type} {x : Res α} {g : α → Res β} {b : β} (e : (x >>= g) = .ok b) :
    ∃ a, x = .ok a ∧ g a = .ok b := by
  cases x with
  | ok a => exact ⟨a, rfl, e⟩
  | err => cases e
  | panic => cases e

/-- A section that is complete is read whatever was in the buffer. -/
theorem readVec_full {sys o : Order} {f : List Byte} {p : ℕ} {buf buf' : List V3} (hl : buf.length = buf'.length)
    (hf : p + 12 * buf.length ≤ f.length) : readVecAsByte sys ⟨f, p⟩ o buf = readVecAsByte sys ⟨f, p⟩ o buf' := by
  have h1 := flatMap_length (encV_length sys) buf
  have h2 := flatMap_length (encV_length sys) buf'
  have h3 : (⟨f, p⟩ : Rdr).read (buf.flatMap (encV sys)) = (⟨f, p⟩ : Rdr).read (buf'.flatMap (encV sys)) := by
    rcases Nat.eq_zero_or_pos buf.length with h0 | h0
    · have a1 : buf = [] := List.length_eq_zero_iff.mp h0
      have a2 : buf' = [] := List.length_eq_zero_iff.mp (hl ▸ h0)
      rw [a1, a2]
    · have n1 : ¬ buf.flatMap (encV sys) = [] := by
        intro h; rw [h, List.length_nil] at h1; omega
      have n2 : ¬ buf'.flatMap (encV sys) = [] := by
        intro h; rw [h, List.length_nil] at h2; omega
      unfold Rdr.read
      dsimp only
      rw [if_neg n1, if_neg n2, h1, h2, ← hl]
      have h4 : ((f.drop p).take (12 * buf.length)).length = 12 * buf.length := by
        rw [List.length_take, List.length_drop]; omega
      rw [h4, List.drop_eq_nil_of_le (as := buf.flatMap (encV sys)) h1.le,
        List.drop_eq_nil_of_le (as := buf'.flatMap (encV sys)) (by rw [h2, hl])]
  unfold readVecAsByte
  dsimp only
  rw [h3, hl]

/-- A section that is complete can be read. -/
theorem readVec_complete {sys o : Order} {f : List Byte} {p : ℕ} {buf : List V3} (hf : p + 12 * buf.length ≤ f.length) :
    ∃ out, readVecAsByte sys ⟨f, p⟩ o buf = .ok out := by
  have hl := flatMap_length (encV_length sys) buf
  have hread : ∃ b r, (⟨f, p⟩ : Rdr).read (buf.flatMap (encV sys)) = .ok (b, r) ∧ b.length = 12 * buf.length := by
    unfold Rdr.read
    dsimp only
    rw [hl]
    have h4 : ((f.drop p).take (12 * buf.length)).length = 12 * buf.length := by
      rw [List.length_take, List.length_drop]; omega
    by_cases h1 : buf.flatMap (encV sys) = []
    · rw [if_pos h1]
      exact ⟨_, _, rfl, hl⟩
    · rw [if_neg h1, if_neg (by
        intro h
        rw [h, List.length_nil] at h4
        exact h1 (List.length_eq_zero_iff.mp (hl.trans h4.symm))), h4]
      refine ⟨_, _, rfl, ?_⟩
      rw [List.length_append, List.length_drop, h4, hl]
      omega
  obtain ⟨b, r, h1, h2⟩ := hread
  obtain ⟨b', h3⟩ := swapLoop_isSome buf.length b h2
  unfold readVecAsByte
  by_cases hs : isSysOrder sys o = false
  · refine ⟨(ofMem 12 (decV sys) buf.length b', r), Res.bind_ok h1 ?_⟩
    dsimp only
    rw [if_pos hs, h3]
    exact Res.bind_ok rfl rfl
  · refine ⟨(ofMem 12 (decV sys) buf.length b, r), Res.bind_ok h1 ?_⟩
    dsimp only
    rw [if_neg hs]
    exact Res.bind_ok rfl rfl

theorem readVec_length {sys o : Order} {r : Rdr} {buf : List V3} {out : List V3 × Rdr}
    (e : readVecAsByte sys r o buf = .ok out) : out.1.length = buf.length := by
  unfold readVecAsByte at e
  dsimp only at e
  cases h1 : r.read (buf.flatMap (encV sys)) with
  | err => rw [h1] at e; cases e
  | panic => rw [h1] at e; cases e
  | ok a =>
    rw [h1] at e
    obtain ⟨b, r'⟩ := a
    by_cases hs : isSysOrder sys o = false
    · simp only [hs, if_true] at e
      obtain ⟨_, _, e⟩ := bind_inv e
      obtain ⟨_, _, e⟩ := bind_inv e
      injection e with e
      rw [← e]
      exact ofMem_length _ _
    · simp only [hs] at e
      obtain ⟨_, _, e⟩ := bind_inv e
      obtain ⟨_, _, e⟩ := bind_inv e
      injection e with e
      rw [← e]
      exact ofMem_length _ _

/-- What a successful read of the positions of a sheet file gives. -/
theorem positions_inv {sys : Order} {f : List Byte} {hd : SheetHeader} (hh : readSheetHeaderAt f = .ok hd) {buf xs : List V3}
    (e : readSheetPositionsAt sys f buf = .ok xs) :
    xs.length = buf.length ∧ hd.gridCount = BitVec.ofNat 64 buf.length ∧
      (160 + 12 * buf.length ≤ f.length → ∀ buf', buf'.length = buf.length → readSheetPositionsAt sys f buf' = .ok xs) := by
  unfold readSheetHeaderAt at hh
  obtain ⟨⟨h, r, o⟩, h1, h2⟩ := bind_inv hh
  injection h2 with h2
  subst h2
  obtain ⟨_, hr, _⟩ := readSheetHeader_inv h1
  subst hr
  unfold readSheetPositionsAt at e ⊢
  rw [h1] at e ⊢
  dsimp only at e ⊢
  split_ifs at e with hc
  rw [not_not] at hc
  obtain ⟨⟨ys, r'⟩, h3, h4⟩ := bind_inv e
  injection h4 with h4
  dsimp only at h4
  subst h4
  refine ⟨readVec_length h3, hc, fun hf buf' hb => ?_⟩
  rw [hb, if_neg (not_not.mpr hc)]
  refine Res.bind_ok (a := (ys, r')) ?_ rfl
  rw [← h3]
  exact readVec_full hb (by rw [hb]; exact hf)

/-- What a successful read of the velocities of a sheet file gives. -/
theorem velocities_inv {sys : Order} {f : List Byte} {buf vs : List V3}
    (e : readSheetVelocitiesAt sys f buf = .ok vs) :
    vs.length = buf.length ∧
      (160 + 24 * buf.length ≤ f.length → ∀ buf', buf'.length = buf.length → readSheetVelocitiesAt sys f buf' = .ok vs) := by
  unfold readSheetVelocitiesAt at e ⊢
  obtain ⟨⟨h, r, o⟩, h1, h2⟩ := bind_inv e
  obtain ⟨_, hr, _⟩ := readSheetHeader_inv h1
  subst hr
  dsimp only at h2
  split_ifs at h2 with hc
  rw [not_not] at hc
  obtain ⟨⟨ys, r'⟩, h3, h4⟩ := bind_inv h2
  injection h4 with h4
  dsimp only at h4
  subst h4
  refine ⟨readVec_length h3, fun hf buf' hb => ?_⟩
  refine Res.bind_ok h1 ?_
  dsimp only
  rw [hb, if_neg (not_not.mpr hc)]
  refine Res.bind_ok (a := (ys, r')) ?_ rfl
  rw [← h3]
  exact readVec_full hb (by rw [hb]; show 4 + 4 + 152 + 3 * 4 * buf.length + 12 * buf.length ≤ f.length; omega)

/-- A pass is made with the data of the file `f`: its header; and its positions and velocities as far as the sections are
complete, which means as far as they can be read at all: then reading them again into any buffer gives the same. -/
structure Own (sys : Order) (vel : Bool) (f : List Byte) (d : Loaded) : Prop where
  header : readSheetHeaderAt f = .ok d.hd
  count : d.hd.gridCount = BitVec.ofNat 64 d.xs.length
  positions : 160 + 12 * d.xs.length ≤ f.length → ∀ buf : List V3, buf.length = d.xs.length →
    readSheetPositionsAt sys f buf = .ok d.xs
  velocities : vel = true → 160 + 24 * d.vs.length ≤ f.length → ∀ buf : List V3, buf.length = d.vs.length →
    readSheetVelocitiesAt sys f buf = .ok d.vs
  lengths : d.vs.length = if vel then d.xs.length else 0

theorem openHeader_inv {e : DirEntry} {hd : SheetHeader} (h : openHeader e = .ok hd) :
    ∃ f, e = some f ∧ readSheetHeaderAt f = .ok hd := by
  cases e with
  | none => cases h
  | some f => exact ⟨f, rfl, h⟩

theorem loadFile_own {sys : Order} {vel : Bool} {m d : Loaded} {e : DirEntry} (hm : m.vs.length = if vel then m.xs.length else 0)
    (h : loadFile sys vel m e = .ok d) : ∃ f, e = some f ∧ Own sys vel f d := by
  unfold loadFile at h
  obtain ⟨hd, h1, h⟩ := bind_inv h
  obtain ⟨xs, h2, h⟩ := bind_inv h
  obtain ⟨f, rfl, hf⟩ := openHeader_inv h1
  obtain ⟨p1, p2, p3⟩ := positions_inv hf h2
  refine ⟨f, rfl, ?_⟩
  cases vel with
  | true =>
    obtain ⟨vs, h3, h⟩ := bind_inv (g := fun vs => Res.ok (⟨hd, xs, vs⟩ : Loaded)) h
    injection h with h
    subst h
    obtain ⟨v1, v2⟩ := velocities_inv h3
    refine ⟨hf, by rw [p1]; exact p2, by rw [p1]; exact p3, fun _ => by rw [v1]; exact v2, ?_⟩
    show vs.length = xs.length
    rw [v1, hm, p1]
    rfl
  | false =>
    have h : Res.ok (⟨hd, xs, m.vs⟩ : Loaded) = Res.ok d := h
    injection h with h
    subst h
    exact ⟨hf, by rw [p1]; exact p2, by rw [p1]; exact p3, fun hc => absurd hc (by decide), hm⟩

/-- Invariant of a fold that ends well. -/
theorem foldlM_inv {α β : Type} {f : β → α → Res β} (P : β → Prop) {l : List α}
    (h : ∀ b, P b → ∀ a ∈ l, ∀ b', f b a = .ok b' → P b') {b b' : β} (hb : P b) (e : l.foldlM f b = .ok b') : P b' := by
  induction l generalizing b with
  | nil => injection e with e; exact e ▸ hb
  | cons a l ih =>
    rw [List.foldlM_cons] at e
    obtain ⟨b1, h1, h2⟩ := bind_inv e
    exact ih (fun b hb a ha => h b hb a (List.mem_cons_of_mem _ ha)) (h b hb a List.mem_cons_self b1 h1) h2

/-- All elements of a list over which a fold ends well were accepted. -/
theorem foldlM_all {α β : Type} {f : β → α → Res β} {l : List α} {b b' : β} (e : l.foldlM f b = .ok b') :
    ∀ a ∈ l, ∃ c c', f c a = .ok c' := by
  induction l generalizing b with
  | nil => intro a h; cases h
  | cons x l ih =>
    rw [List.foldlM_cons] at e
    obtain ⟨b1, h1, h2⟩ := bind_inv e
    intro a h
    rcases List.mem_cons.mp h with rfl | h
    · exact ⟨b, b1, h1⟩
    · exact ih h2 a h

theorem makeVecs_inv {w : Word 8} {xs : List V3} (h : makeVecs w = .ok xs) : w.toInt = xs.length := by
  unfold makeVecs at h
  split_ifs at h with hc
  injection h with h
  rw [← h, List.length_replicate]
  omega

/-- The box with number `i` needs sheets with header `hd`. -/
def Needs (tests : List (SheetHeader → Bool)) (i : ℕ) (hd : SheetHeader) : Prop := ∃ t, tests[i]? = some t ∧ t hd = true

theorem mem_boxesHit {tests : List (SheetHeader → Bool)} {hd : SheetHeader} {i : ℕ} (h : i ∈ boxesHit tests hd) :
    Needs tests i hd := by
  unfold boxesHit at h
  rw [List.mem_filter, List.mem_range] at h
  obtain ⟨h1, h2⟩ := h
  rw [List.getElem?_eq_getElem h1] at h2
  exact ⟨_, List.getElem?_eq_getElem h1, h2⟩

/-- **C140** for every directory: a run that succeeds has read a header from every entry (so one foreign entry stops the
run), and each pass is over a box that needs the file, with the header of the file and with its positions and velocities
as far as the sections are complete. Missing from the full claim: sections that are not complete are not refused
(`C140_stale_counterexample`). -/
theorem C140_own_partial {sys : Order} {vel : Bool} {mk : SheetHeader → Res (List (SheetHeader → Bool))} {files : List DirEntry}
    {trace : List (ℕ × Loaded)} (e : renderRun sys vel mk files = .ok trace) :
    (∀ x ∈ files, ∃ f hd, x = some f ∧ readSheetHeaderAt f = .ok hd) ∧
      ∃ hd tests, mk hd = .ok tests ∧ (∃ x, files.head? = some (some x) ∧ readSheetHeaderAt x = .ok hd) ∧
        ∀ p ∈ trace, Needs tests p.1 p.2.hd ∧ ∃ f, some f ∈ files ∧ Own sys vel f p.2 := by
  unfold renderRun at e
  obtain ⟨first, h1, e⟩ := bind_inv e
  obtain ⟨hd, h2, e⟩ := bind_inv e
  obtain ⟨tests, h3, e⟩ := bind_inv e
  obtain ⟨⟨m, plan⟩, h4, e⟩ := bind_inv e
  obtain ⟨⟨m', tr⟩, h5, e⟩ := bind_inv e
  injection e with e
  subst e
  unfold newManager at h4
  obtain ⟨pl, k1, h4⟩ := bind_inv h4
  obtain ⟨first', k2, h4⟩ := bind_inv h4
  obtain ⟨hd', k3, h4⟩ := bind_inv h4
  obtain ⟨xs, k4, h4⟩ := bind_inv h4
  by_cases hne : tests = []
  · rw [if_pos hne] at h4
    cases h4
  rw [if_neg hne] at h4
  injection h4 with h4
  rw [Prod.mk.injEq] at h4
  obtain ⟨hm, rfl⟩ := h4
  have hfirst : first' = first := by
    cases hh : files.head? with
    | none => rw [hh] at h1; cases h1
    | some a =>
      rw [hh] at h1 k2
      injection h1 with h1
      injection k2 with k2
      rw [← h1, ← k2]
  subst hfirst
  have hhead : files.head? = some first' := by
    cases hh : files.head? with
    | none => rw [hh] at h1; cases h1
    | some a => rw [hh] at h1; injection h1 with h1; rw [h1]
  have hhd : hd' = hd := by
    unfold setupHeader at h2
    rw [k3] at h2
    injection h2
  subst hhd
  obtain ⟨f0, hf0, hr0⟩ := openHeader_inv k3
  refine ⟨?_, hd', tests, h3, ⟨f0, by rw [hhead, hf0], hr0⟩, ?_⟩
  · intro x hx
    obtain ⟨c, c', hc⟩ := foldlM_all k1 x hx
    unfold planFile at hc
    obtain ⟨hdx, hc, _⟩ := bind_inv hc
    obtain ⟨f, hf, hr⟩ := openHeader_inv hc
    exact ⟨f, hdx, hf, hr⟩
  · have hplan : ∀ q ∈ pl, q.1 ∈ files ∧ ∃ hq, openHeader q.1 = .ok hq ∧ ∀ i ∈ q.2, Needs tests i hq := by
      refine foldlM_inv (fun pl => ∀ q ∈ pl, q.1 ∈ files ∧ ∃ hq, openHeader q.1 = .ok hq ∧ ∀ i ∈ q.2, Needs tests i hq)
        (fun b hb a ha b' hb' => ?_) (fun q hq => by cases hq) k1
      unfold planFile at hb'
      obtain ⟨ha', h6, h7⟩ := bind_inv hb'
      injection h7 with h7
      rw [← h7]
      split_ifs with hc
      · exact hb
      · intro q hq
        rcases List.mem_append.mp hq with hq | hq
        · exact hb q hq
        · rw [List.mem_singleton] at hq
          subst hq
          exact ⟨ha, ha', h6, fun i hi => mem_boxesHit hi⟩
    have := foldlM_inv (fun s : Loaded × List (ℕ × Loaded) => (s.1.vs.length = if vel then s.1.xs.length else 0) ∧
        ∀ p ∈ s.2, Needs tests p.1 p.2.hd ∧ ∃ f, some f ∈ files ∧ Own sys vel f p.2)
        (fun b hb a ha b' hb' => ?_) ⟨?_, fun p hp => by cases hp⟩ h5
    · exact this.2
    · obtain ⟨ha1, hq, ha2, ha3⟩ := hplan a ha
      unfold renderFile at hb'
      obtain ⟨d, h6, h7⟩ := bind_inv hb'
      injection h7 with h7
      obtain ⟨f, hf, hown⟩ := loadFile_own hb.1 h6
      rw [← h7]
      refine ⟨hown.lengths, fun p hp => ?_⟩
      rcases List.mem_append.mp hp with hp | hp
      · exact hb.2 p hp
      · obtain ⟨i, hi, rfl⟩ := List.mem_map.mp hp
        have : hq = d.hd := by
          rw [hf] at ha2
          have := ha2.symm.trans hown.header
          injection this
        exact ⟨this ▸ ha3 i hi, f, hf ▸ ha1, hown⟩
    · rw [← hm]
      cases vel <;> rfl

example : ∃ trace, renderRun .le true (fun _ => .ok [fun _ => true]) [(oneSheet .le ⟨1, 5, 5⟩ ⟨7, 0, 0⟩).file] = .ok trace :=
  ⟨_, C140_files_partial .le true _ (oneSheet .le ⟨1, 5, 5⟩ ⟨7, 0, 0⟩) [] _ rfl (by simp) (oneSheet_ok _ _ _)
    (fun s hs => by cases hs)⟩

/-- A directory with a file that is not a sheet is refused, also if no box needs anything of it. -/
example : renderRun .le false (fun _ => .ok [fun h => h.gridCount == 1])
    [(oneSheet .le ⟨1, 5, 5⟩ ⟨7, 0, 0⟩).file, some [0, 0, 0, 0, 7, 0, 0, 0]] = .err := by decide +kernel

/-- The empty directory is a crash. -/
example : renderRun .le false (fun _ => .ok [fun _ => true]) [] = .panic := rfl

/-! ## Files that end too early -/

/-- The file of a sheet that was cut off after `k` positions. -/
def Sheet.cut (s : Sheet) (k : ℕ) : DirEntry := some ((sheetBytes s.o s.h s.xs s.vs).take (160 + 12 * k))

theorem flatMap_take {α : Type} {s : ℕ} {enc : α → List Byte} (hl : ∀ a, (enc a).length = s) (k : ℕ) (xs : List α) :
    (xs.flatMap enc).take (s * k) = (xs.take k).flatMap enc := by
  induction k generalizing xs with
  | zero => simp
  | succ k ih =>
    cases xs with
    | nil => simp
    | cons a xs =>
      rw [List.flatMap_cons, List.take_succ_cons, List.flatMap_cons, ← ih, Nat.mul_succ, Nat.add_comm,
        List.take_append, hl, List.take_of_length_le (by rw [hl]; omega)]
      congr 2
      omega

theorem flatMap_drop {α : Type} {s : ℕ} {enc : α → List Byte} (hl : ∀ a, (enc a).length = s) (k : ℕ) (xs : List α) :
    (xs.flatMap enc).drop (s * k) = (xs.drop k).flatMap enc := by
  induction k generalizing xs with
  | zero => simp
  | succ k ih =>
    cases xs with
    | nil => simp
    | cons a xs =>
      rw [List.flatMap_cons, List.drop_succ_cons, ← ih, Nat.mul_succ, Nat.add_comm, ← List.drop_drop, drop_app (hl a)]

theorem cut_sections (s : Sheet) (k : ℕ) (hk : k ≤ s.xs.length) :
    (sheetBytes s.o s.h s.xs s.vs).take (160 + 12 * k) = sheetBytes s.o s.h (s.xs.take k) [] := by
  unfold sheetBytes
  rw [List.flatMap_nil, List.append_nil, List.take_append, List.take_append, List.take_append, encode_length, encode_length,
    encHeader_length, List.take_of_length_le (l := encode _ _ _) (by rw [encode_length]; omega),
    List.take_of_length_le (l := encode _ _ _) (by rw [encode_length]; omega),
    List.take_of_length_le (l := encHeader _ _) (by rw [encHeader_length]; omega),
    show 160 + 12 * k - 4 - 4 - 152 = 12 * k by omega, List.take_append_of_le_length (by
      rw [flatMap_length (encV_length s.o)]; omega), flatMap_take (encV_length s.o)]

/-- Reading positions from a file with fewer of them: the rest of the buffer stays. -/
theorem openPositions_cut (s : Sheet) (hs : s.Ok) {k : ℕ} (hk : 0 < k) (hk' : k ≤ s.xs.length) {buf : List V3}
    (hb : buf.length = s.xs.length) : openPositions s.o (s.cut k) buf = .ok (s.xs.take k ++ buf.drop k) := by
  unfold Sheet.cut
  rw [cut_sections s k hk']
  show readSheetPositionsAt _ _ _ = _
  obtain ⟨r, e, hd⟩ := readSheetHeader_ok s.o s.h ((s.xs.take k).flatMap (encV s.o) ++ ([] : List V3).flatMap (encV s.o))
  have hr : (r.seek (4 + 4 + headerSize)).rest = (s.xs.take k).flatMap (encV s.o) := by
    show r.data.drop (4 + 4 + headerSize) = _
    rw [hd, ← List.drop_drop, ← List.drop_drop, drop_app (encode_length _ _ _), drop_app (encode_length _ _ _),
      drop_app (n := headerSize) (encHeader_length _ _), List.flatMap_nil, List.append_nil]
  have l1 := flatMap_length (encV_length s.o) buf
  have l2 := flatMap_length (encV_length s.o) (s.xs.take k)
  rw [List.length_take, Nat.min_eq_left hk'] at l2
  have hread : ∃ r', (r.seek (4 + 4 + headerSize)).read (buf.flatMap (encV s.o)) =
      .ok ((s.xs.take k ++ buf.drop k).flatMap (encV s.o), r') := by
    unfold Rdr.read
    dsimp only
    have hg : ((r.seek (4 + 4 + headerSize)).data.drop (r.seek (4 + 4 + headerSize)).pos).take
        (buf.flatMap (encV s.o)).length = (s.xs.take k).flatMap (encV s.o) := by
      have : (r.seek (4 + 4 + headerSize)).data.drop (r.seek (4 + 4 + headerSize)).pos = _ := hr
      rw [this, List.take_of_length_le (by rw [l1, l2]; omega)]
    rw [hg, if_neg (by intro h; rw [h, List.length_nil] at l1; omega),
      if_neg (by intro h; rw [h, List.length_nil] at l2; omega), l2, flatMap_drop (encV_length s.o), List.flatMap_append]
    exact ⟨_, rfl⟩
  obtain ⟨r', hread⟩ := hread
  unfold readSheetPositionsAt sheetBytes
  rw [e]
  dsimp only
  rw [if_neg (not_not.mpr (by rw [hb]; exact ofNat_of_toInt hs.1))]
  refine Res.bind_ok (a := (s.xs.take k ++ buf.drop k, r')) ?_ rfl
  unfold readVecAsByte
  refine Res.bind_ok hread ?_
  rw [isSysOrder_iff]
  simp only [decide_true, Bool.true_eq_false, if_false]
  refine Res.bind_ok rfl ?_
  have hlen : buf.length = (s.xs.take k ++ buf.drop k).length := by
    rw [List.length_append, List.length_take, List.length_drop]
    omega
  rw [hlen, ofMem_flatMap (encV_length s.o) (decV_encV s.o)]

theorem openHeader_cut (s : Sheet) {k : ℕ} (hk' : k ≤ s.xs.length) : openHeader (s.cut k) = .ok (withCount s.h) := by
  unfold Sheet.cut
  rw [cut_sections s k hk']
  exact openHeader_file ⟨s.o, s.h, s.xs.take k, []⟩

/-- **C140, counterexample.** The file of the second sheet ends after `k` of its positions. The run succeeds, and the second
sheet is rendered with the positions of the first one from there on. -/
theorem C140_stale_counterexample (a b : Sheet) (ha : a.Ok) (hb : b.Ok) (hl : a.xs.length = b.xs.length) {k : ℕ} (hk : 0 < k)
    (hk' : k ≤ b.xs.length) : renderRun b.o false (fun _ => .ok [fun _ => true]) [a.file, b.cut k] =
      .ok [(0, ⟨withCount a.h, a.xs, []⟩), (0, ⟨withCount b.h, b.xs.take k ++ a.xs.drop k, []⟩)] := by
  have hm : newManager false [fun _ => true] [a.file, b.cut k] =
      .ok (⟨withCount a.h, List.replicate a.xs.length ⟨0, 0, 0⟩, []⟩, [(a.file, [0]), (b.cut k, [0])]) := by
    unfold newManager
    refine Res.bind_ok (a := [(a.file, [0]), (b.cut k, [0])]) ?_ (Res.bind_ok (a := a.file) rfl
      (Res.bind_ok (openHeader_file a) (Res.bind_ok (makeVecs_ok ha.1) ?_)))
    · have h1 : planFile [fun _ => true] [] a.file = .ok [(a.file, [0])] := by
        unfold planFile
        exact Res.bind_ok (openHeader_file a) rfl
      have h2 : planFile [fun _ => true] [(a.file, [0])] (b.cut k) = .ok [(a.file, [0]), (b.cut k, [0])] := by
        unfold planFile
        exact Res.bind_ok (openHeader_cut b hk') rfl
      rw [foldlM_cons_ok h1, foldlM_cons_ok h2]
      rfl
    · rw [if_neg (by simp)]
      rfl
  have h1 : renderFile b.o false (⟨withCount a.h, List.replicate a.xs.length ⟨0, 0, 0⟩, []⟩, []) (a.file, [0]) =
      .ok (a.data false, [(0, a.data false)]) := by
    unfold renderFile
    exact Res.bind_ok (loadFile_file b.o false ha (List.length_replicate ..) rfl) rfl
  have h2 : renderFile b.o false (a.data false, [(0, a.data false)]) (b.cut k, [0]) =
      .ok (⟨withCount b.h, b.xs.take k ++ a.xs.drop k, []⟩,
        [(0, a.data false), (0, ⟨withCount b.h, b.xs.take k ++ a.xs.drop k, []⟩)]) := by
    unfold renderFile loadFile
    refine Res.bind_ok (Res.bind_ok (openHeader_cut b hk') (Res.bind_ok (openPositions_cut b hb hk hk' hl) ?_)) rfl
    exact Res.bind_ok rfl rfl
  unfold renderRun
  refine Res.bind_ok (a := a.file) rfl (Res.bind_ok (a := withCount a.h) ?_ (Res.bind_ok rfl (Res.bind_ok hm ?_)))
  · unfold setupHeader
    rw [openHeader_file]
  · dsimp only
    rw [foldlM_cons_ok h1, foldlM_cons_ok h2]
    rfl

/-- A sheet with two vectors. -/
def twoSheet (x y : V3) : Sheet :=
  ⟨.le, ⟨0, 0, 0, 0, 0, 1, 1, 1, 2, 0, 1, 0, 0, x, ⟨0, 0, 0⟩, x, ⟨0, 0, 0⟩⟩, [x, y], [x, y]⟩

theorem twoSheet_ok (x y : V3) : (twoSheet x y).Ok :=
  ⟨by show BitVec.toInt (2 : Word 8) = ((2 : ℕ) : ℤ); decide, rfl⟩

/-- The second position of the second pass is that of the first file. -/
example : ((twoSheet ⟨3, 3, 3⟩ ⟨4, 4, 4⟩).xs.take 1 ++ (twoSheet ⟨1, 1, 1⟩ ⟨2, 2, 2⟩).xs.drop 1) =
    [⟨3, 3, 3⟩, ⟨2, 2, 2⟩] ∧
    ∃ t, renderRun .le false (fun _ => .ok [fun _ => true])
      [(twoSheet ⟨1, 1, 1⟩ ⟨2, 2, 2⟩).file, (twoSheet ⟨3, 3, 3⟩ ⟨4, 4, 4⟩).cut 1] = .ok t :=
  ⟨rfl, _, C140_stale_counterexample (twoSheet ⟨1, 1, 1⟩ ⟨2, 2, 2⟩) (twoSheet ⟨3, 3, 3⟩ ⟨4, 4, 4⟩) (twoSheet_ok _ _)
    (twoSheet_ok _ _) rfl one_pos (by simp [twoSheet])⟩

/-! ## Histograms -/

theorem histBoxes_ok (sys : Order) {s : Sheet} (hs : s.Ok) (is : List ℕ) {buf : List V3} (hb : buf.length = s.xs.length)
    (acc : List (ℕ × Loaded)) :
    is.foldlM (histBox sys (withCount s.h) s.file) (buf, acc) =
      .ok (if is = [] then buf else s.xs, acc ++ is.map fun i => (i, s.data false)) := by
  induction is generalizing buf acc with
  | nil => rw [if_pos rfl, List.map_nil, List.append_nil]; rfl
  | cons i is ih =>
    have h1 : histBox sys (withCount s.h) s.file (buf, acc) i = .ok (s.xs, acc ++ [(i, s.data false)]) := by
      unfold histBox
      rw [openPositions_file sys hs hb]
      rfl
    rw [foldlM_cons_ok h1, ih rfl, if_neg (List.cons_ne_nil _ _), List.append_assoc, List.map_cons, List.singleton_append]
    simp

theorem histFiles_ok (sys : Order) (tests : List (SheetHeader → Bool)) (n : ℕ) (ss : List Sheet)
    (hs : ∀ s ∈ ss, hits tests s ≠ [] → s.Ok ∧ s.xs.length = n) {buf : List V3} (hb : buf.length = n)
    (acc : List (ℕ × Loaded)) :
    ∃ buf', (ss.map Sheet.file).foldlM (histFile sys tests) (buf, acc) =
      .ok (buf', acc ++ ss.flatMap fun s => (hits tests s).map fun i => (i, s.data false)) := by
  induction ss generalizing buf acc with
  | nil => exact ⟨buf, by rw [List.flatMap_nil, List.append_nil]; rfl⟩
  | cons s ss ih =>
    have h1 : ∃ b', b'.length = n ∧ histFile sys tests (buf, acc) s.file =
        .ok (b', acc ++ (hits tests s).map fun i => (i, s.data false)) := by
      by_cases h0 : hits tests s = []
      · refine ⟨buf, hb, ?_⟩
        unfold histFile
        refine Res.bind_ok (openHeader_file s) ?_
        have : boxesHit tests (withCount s.h) = [] := h0
        rw [this, h0, List.map_nil, List.append_nil]
        rfl
      · obtain ⟨g1, g2⟩ := hs s List.mem_cons_self h0
        refine ⟨s.xs, g2, ?_⟩
        unfold histFile
        refine Res.bind_ok (openHeader_file s) ?_
        have := histBoxes_ok sys g1 (boxesHit tests (withCount s.h)) (hb.trans g2.symm) acc
        rw [if_neg (show boxesHit tests (withCount s.h) ≠ [] from h0)] at this
        exact this
    obtain ⟨b', g1, g2⟩ := h1
    obtain ⟨buf', e⟩ := ih (fun s' h' => hs s' (List.mem_cons_of_mem _ h')) g1 (acc ++ (hits tests s).map fun i => (i, s.data false))
    exact ⟨buf', by rw [List.map_cons, foldlM_cons_ok g2, e, List.flatMap_cons, List.append_assoc]⟩

/-- **C141.** Histograms of a directory of complete sheets, of which those needed have the number of vectors of the first:
every box is analysed with every sheet it meets, and the workers see the header and positions of that sheet. Missing from
the full claim: other files (`C141_stale_counterexample`, `C141_own_partial`). -/
theorem C141_files_partial (sys : Order) (mk : SheetHeader → Res (List (SheetHeader → Bool))) (s₀ : Sheet)
    (ss : List Sheet) (tests : List (SheetHeader → Bool)) (hmk : mk (withCount s₀.h) = .ok tests)
    (h₀ : s₀.Ok) (hs : ∀ s ∈ ss, hits tests s ≠ [] → s.Ok ∧ s.xs.length = s₀.xs.length) :
    histRun sys mk ((s₀ :: ss).map Sheet.file) =
      .ok ((s₀ :: ss).flatMap fun s => (hits tests s).map fun i => (i, s.data false)) := by
  obtain ⟨buf', e⟩ := histFiles_ok sys tests s₀.xs.length (s₀ :: ss) (by
    intro s h h'
    rcases List.mem_cons.mp h with rfl | h
    · exact ⟨h₀, rfl⟩
    · exact hs s h h') (List.length_replicate (a := (⟨0, 0, 0⟩ : V3))) []
  rw [List.nil_append] at e
  unfold histRun
  refine Res.bind_ok (a := s₀.file) rfl (Res.bind_ok (a := withCount s₀.h) ?_ (Res.bind_ok hmk
    (Res.bind_ok (openHeader_file s₀) (Res.bind_ok (makeVecs_ok h₀.1) (Res.bind_ok e rfl)))))
  unfold setupHeader
  rw [openHeader_file]

example : histRun .be (fun _ => .ok [fun h => h.origin.x ≤ 2])
      ([oneSheet .le ⟨1, 5, 5⟩ ⟨7, 0, 0⟩, twoSheet ⟨3, 3, 3⟩ ⟨4, 4, 4⟩, oneSheet .be ⟨2, 5, 5⟩ ⟨8, 0, 0⟩].map Sheet.file) =
    .ok [(0, (oneSheet .le ⟨1, 5, 5⟩ ⟨7, 0, 0⟩).data false), (0, (oneSheet .be ⟨2, 5, 5⟩ ⟨8, 0, 0⟩).data false)] := by
  rw [C141_files_partial .be _ _ _ _ rfl (oneSheet_ok _ _ _) (by
    intro s hs h
    simp only [List.mem_cons, List.not_mem_nil, or_false] at hs
    rcases hs with rfl | rfl
    · exact absurd (by decide +kernel) h
    · exact ⟨oneSheet_ok _ _ _, rfl⟩)]
  decide +kernel

/-- **C141, counterexample.** A sheet that does not have the number of vectors of the first one is not refused: it is analysed
with the positions of the sheet before it. -/
theorem C141_stale_counterexample (sys : Order) (a b : Sheet) (ha : a.Ok) (hb : b.Ok) (hl : a.xs.length ≠ b.xs.length) :
    histRun sys (fun _ => .ok [fun _ => true]) [a.file, b.file] =
      .ok [(0, ⟨withCount a.h, a.xs, []⟩), (0, ⟨withCount b.h, a.xs, []⟩)] := by
  have h1 : histFile sys [fun _ => true] (List.replicate a.xs.length ⟨0, 0, 0⟩, []) a.file =
      .ok (a.xs, [(0, a.data false)]) := by
    unfold histFile
    refine Res.bind_ok (openHeader_file a) ?_
    have := histBoxes_ok sys ha [0] (List.length_replicate (n := a.xs.length) (a := (⟨0, 0, 0⟩ : V3))) []
    rw [if_neg (by simp)] at this
    exact this
  have h2 : histFile sys [fun _ => true] (a.xs, [(0, a.data false)]) b.file =
      .ok (a.xs, [(0, a.data false), (0, ⟨withCount b.h, a.xs, []⟩)]) := by
    unfold histFile
    refine Res.bind_ok (openHeader_file b) ?_
    have h3 : openPositions sys b.file a.xs = .err := by
      obtain ⟨r, e, _⟩ := readSheetHeader_ok b.o b.h (b.xs.flatMap (encV b.o) ++ b.vs.flatMap (encV b.o))
      show readSheetPositionsAt _ _ _ = _
      unfold readSheetPositionsAt sheetBytes
      rw [e]
      dsimp only
      rw [if_pos]
      intro hc
      have hc : b.h.gridCount = BitVec.ofNat (8 * 8) a.xs.length := hc
      have e1 := ofNat_of_toInt ha.1
      have e2 := hb.1
      rw [hc, ← e1, ha.1] at e2
      exact hl (by exact_mod_cast e2)
    have h4 : histBox sys (withCount b.h) b.file (a.xs, [(0, a.data false)]) 0 =
        .ok (a.xs, [(0, a.data false), (0, ⟨withCount b.h, a.xs, []⟩)]) := by
      unfold histBox
      rw [h3]
      rfl
    show [0].foldlM (histBox sys (withCount b.h) b.file) _ = _
    rw [foldlM_cons_ok h4]
    rfl
  unfold histRun
  refine Res.bind_ok (a := a.file) rfl (Res.bind_ok (a := withCount a.h) ?_ (Res.bind_ok rfl
    (Res.bind_ok (openHeader_file a) (Res.bind_ok (makeVecs_ok ha.1) ?_))))
  · unfold setupHeader
    rw [openHeader_file]
  · rw [show [a.file, b.file].foldlM (histFile sys [fun _ => true]) (List.replicate a.xs.length ⟨0, 0, 0⟩, []) = _ from
      (foldlM_cons_ok h1).trans (foldlM_cons_ok h2)]
    rfl

example : ∃ t, histRun .le (fun _ => .ok [fun _ => true])
    [(twoSheet ⟨1, 1, 1⟩ ⟨2, 2, 2⟩).file, (oneSheet .le ⟨9, 9, 9⟩ ⟨0, 0, 0⟩).file] = .ok t :=
  ⟨_, C141_stale_counterexample .le _ _ (twoSheet_ok _ _) (oneSheet_ok _ _ _) (by decide)⟩

/-- **C141** for every directory: a run that succeeds has read a header from every entry, each pass is over a box that
needs the file, with the header of the file, as many positions as the first header announces, and the positions are those of the file if it
announces as many and the section is complete. Missing from the full claim: files that cannot provide the positions are not
refused (`C141_stale_counterexample`). -/
theorem C141_own_partial {sys : Order} {mk : SheetHeader → Res (List (SheetHeader → Bool))} {files : List DirEntry}
    {trace : List (ℕ × Loaded)} (e : histRun sys mk files = .ok trace) :
    (∀ x ∈ files, ∃ f hd, x = some f ∧ readSheetHeaderAt f = .ok hd) ∧
      ∃ hd tests, mk hd = .ok tests ∧ (∃ x, files.head? = some (some x) ∧ readSheetHeaderAt x = .ok hd) ∧
        ∀ p ∈ trace, Needs tests p.1 p.2.hd ∧ hd.gridCount.toInt = p.2.xs.length ∧
          ∃ f, some f ∈ files ∧ readSheetHeaderAt f = .ok p.2.hd ∧
            (p.2.hd.gridCount = hd.gridCount → 160 + 12 * p.2.xs.length ≤ f.length →
              ∀ buf : List V3, buf.length = p.2.xs.length → readSheetPositionsAt sys f buf = .ok p.2.xs) := by
  unfold histRun at e
  obtain ⟨first, h1, e⟩ := bind_inv e
  obtain ⟨hd, h2, e⟩ := bind_inv e
  obtain ⟨tests, h3, e⟩ := bind_inv e
  obtain ⟨hd', h4, e⟩ := bind_inv e
  obtain ⟨xs, h5, e⟩ := bind_inv e
  obtain ⟨⟨buf, tr⟩, h6, e⟩ := bind_inv e
  injection e with e
  subst e
  have hhead : files.head? = some first := by
    cases hh : files.head? with
    | none => rw [hh] at h1; cases h1
    | some a => rw [hh] at h1; injection h1 with h1; rw [h1]
  have hhd : hd' = hd := by
    unfold setupHeader at h2
    rw [h4] at h2
    injection h2
  subst hhd
  have hn := makeVecs_inv h5
  obtain ⟨f0, hf0, hr0⟩ := openHeader_inv h4
  refine ⟨?_, hd', tests, h3, ⟨f0, by rw [hhead, hf0], hr0⟩, ?_⟩
  · intro x hx
    obtain ⟨c, c', hc⟩ := foldlM_all h6 x hx
    unfold histFile at hc
    obtain ⟨hdx, hc, _⟩ := bind_inv hc
    obtain ⟨f, hf, hr⟩ := openHeader_inv hc
    exact ⟨f, hdx, hf, hr⟩
  · have key := foldlM_inv (fun s : List V3 × List (ℕ × Loaded) => s.1.length = xs.length ∧
        ∀ p ∈ s.2, Needs tests p.1 p.2.hd ∧ hd'.gridCount.toInt = p.2.xs.length ∧
          ∃ f, some f ∈ files ∧ readSheetHeaderAt f = .ok p.2.hd ∧
            (p.2.hd.gridCount = hd'.gridCount → 160 + 12 * p.2.xs.length ≤ f.length →
              ∀ buf : List V3, buf.length = p.2.xs.length → readSheetPositionsAt sys f buf = .ok p.2.xs))
        (fun b hb a ha b' hb' => ?_) ⟨rfl, fun p hp => by cases hp⟩ h6
    · exact key.2
    · unfold histFile at hb'
      obtain ⟨hda, g1, g2⟩ := bind_inv hb'
      obtain ⟨f, rfl, hf⟩ := openHeader_inv g1
      refine foldlM_inv (fun s : List V3 × List (ℕ × Loaded) => s.1.length = xs.length ∧
        ∀ p ∈ s.2, Needs tests p.1 p.2.hd ∧ hd'.gridCount.toInt = p.2.xs.length ∧
          ∃ f, some f ∈ files ∧ readSheetHeaderAt f = .ok p.2.hd ∧
            (p.2.hd.gridCount = hd'.gridCount → 160 + 12 * p.2.xs.length ≤ f.length →
              ∀ buf : List V3, buf.length = p.2.xs.length → readSheetPositionsAt sys f buf = .ok p.2.xs))
        (fun s hs i hi s' hs' => ?_) hb g2
      unfold histBox at hs'
      cases hp : openPositions sys (some f) s.1 with
      | ok ys =>
        rw [hp] at hs'
        injection hs' with hs'
        obtain ⟨p1, p2, p3⟩ := positions_inv hf hp
        rw [← hs']
        refine ⟨p1.trans hs.1, fun p hq => ?_⟩
        rcases List.mem_append.mp hq with hq | hq
        · exact hs.2 p hq
        · rw [List.mem_singleton] at hq
          subst hq
          refine ⟨mem_boxesHit hi, by rw [hn, ← hs.1, ← p1], f, ha, hf, fun _ hc => ?_⟩
          dsimp only at hc ⊢
          rw [p1] at hc ⊢
          exact p3 hc
      | err =>
        rw [hp] at hs'
        injection hs' with hs'
        rw [← hs']
        refine ⟨hs.1, fun p hq => ?_⟩
        rcases List.mem_append.mp hq with hq | hq
        · exact hs.2 p hq
        · rw [List.mem_singleton] at hq
          subst hq
          refine ⟨mem_boxesHit hi, by rw [hn, ← hs.1], f, ha, hf, fun hg hc => ?_⟩
          exfalso
          dsimp only at hg hc
          unfold readSheetHeaderAt at hf
          obtain ⟨⟨h, r, o⟩, k1, k2⟩ := bind_inv hf
          injection k2 with k2
          subst k2
          obtain ⟨_, hr, _⟩ := readSheetHeader_inv k1
          subst hr
          have hp : readSheetPositionsAt sys f s.1 = .err := hp
          unfold readSheetPositionsAt at hp
          rw [k1] at hp
          dsimp only at hp
          rw [if_neg (not_not.mpr (by rw [hg, hs.1]; exact ofNat_of_toInt hn))] at hp
          obtain ⟨a, ha⟩ := readVec_complete (sys := sys) (o := o) (f := f) (p := 160) (buf := s.1) hc
          rw [show (⟨f, 160⟩ : Rdr).seek (4 + 4 + headerSize) = ⟨f, 160⟩ from rfl, ha] at hp
          cases hp
      | panic => rw [hp] at hs'; cases hs'

example : ∃ t, histRun .le (fun _ => .ok [fun _ => true])
    [(twoSheet ⟨1, 1, 1⟩ ⟨2, 2, 2⟩).file, (oneSheet .le ⟨9, 9, 9⟩ ⟨0, 0, 0⟩).file] = .ok t :=
  ⟨_, C141_stale_counterexample .le _ _ (twoSheet_ok _ _) (oneSheet_ok _ _ _) (by decide)⟩

end Verif.Main.Files
