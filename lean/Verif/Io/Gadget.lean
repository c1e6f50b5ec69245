import Verif.Io.Bytes
import Mathlib.Tactic.Linarith
import Mathlib.Data.Nat.ModEq

/-!
# C67: Gadget particle counts; C96: Gadget files are read back; C97: wrapping of Gadget positions
-/

set_option autoImplicit false

namespace Verif.Io

open Verif.Go

/-! ## C67 -/

theorem shift_out (a : Word 4) : a <<< 32 = 0 := by
  apply BitVec.eq_of_toNat_eq
  rw [BitVec.toNat_shiftLeft, Nat.shiftLeft_eq, show (0 : Word 4).toNat = 0 from rfl]
  exact Nat.mul_mod_left _ _

/-- Whatever the high words are, they do not reach the counts: both are the low 32 bits. -/
theorem C67_low_word (gh : GadgetHeader) :
    (standardize gh).count.toNat = gh.nPart1.toNat ∧ (standardize gh).totalCount.toNat = gh.nPartTotal1.toNat := by
  unfold standardize
  have hz : ∀ w : Word 4, w + 0 = w := fun w => BitVec.add_zero w
  simp only [shift_out, hz, BitVec.toNat_setWidth]
  have h1 := gh.nPart1.isLt
  have h2 := gh.nPartTotal1.isLt
  constructor <;> rw [Nat.mod_eq_of_lt] <;> omega

/-- The counts are right for headers whose high words are zero.
Missing: 2^32 particles and more (`C67_counterexample`). -/
theorem C67_partial (gh : GadgetHeader) (h0 : gh.nPart0 = 0) (h1 : gh.nPartTotal0 = 0) :
    (standardize gh).count.toNat = gh.nPart1.toNat + 2 ^ 32 * gh.nPart0.toNat ∧
    (standardize gh).totalCount.toNat = gh.nPartTotal1.toNat + 2 ^ 32 * gh.nPartTotal0.toNat := by
  rw [h0, h1]
  exact C67_low_word gh

example : (standardize { zeroGadget with nPart1 := 17, nPartTotal1 := 2 ^ 31 }).totalCount.toNat = 2 ^ 31 := by
  decide +kernel

/-- With a non-zero high word the count is always wrong. -/
theorem C67_counterexample (gh : GadgetHeader) :
    (gh.nPart0 ≠ 0 → (standardize gh).count.toNat ≠ gh.nPart1.toNat + 2 ^ 32 * gh.nPart0.toNat) ∧
    (gh.nPartTotal0 ≠ 0 → (standardize gh).totalCount.toNat ≠ gh.nPartTotal1.toNat + 2 ^ 32 * gh.nPartTotal0.toNat) := by
  have key : ∀ w : Word 4, w ≠ 0 → w.toNat ≠ 0 := by
    intro w h h'
    exact h (BitVec.eq_of_toNat_eq (by rw [h']; rfl))
  rw [(C67_low_word gh).1, (C67_low_word gh).2]
  constructor <;> intro h <;> have := key _ h <;> omega

example : (standardize { zeroGadget with nPartTotal0 := 1, nPartTotal1 := 5 }).totalCount.toNat = 5 := by decide +kernel

/-! ## C96 -/

/-- The 256 bytes of a Gadget header whose fields are those of `h`, in byte order `o`. The layout is that of the
Gadget-2 format: `npart[6]` (offset 0), `mass[6]` (24), `time` (72), `redshift` (80), `flag_sfr`, `flag_feedback`,
`npartTotal[6]` (96), `flag_cooling`, `num_files`, `BoxSize` (128), `Omega0`, `OmegaLambda`, `HubbleParam`. -/
structure GadgetBytes (o : Order) (h : GadgetHeader) (bs : List Byte) : Prop where
  len : bs.length = 256
  nPart0 : (bs.drop 0).take 4 = encode o 4 h.nPart0
  nPart1 : (bs.drop 4).take 4 = encode o 4 h.nPart1
  mass1 : (bs.drop (24 + 8)).take 8 = encode o 8 h.mass1
  time : (bs.drop 72).take 8 = encode o 8 h.time
  redshift : (bs.drop 80).take 8 = encode o 8 h.redshift
  nPartTotal0 : (bs.drop 96).take 4 = encode o 4 h.nPartTotal0
  nPartTotal1 : (bs.drop (96 + 4)).take 4 = encode o 4 h.nPartTotal1
  boxSize : (bs.drop 128).take 8 = encode o 8 h.boxSize
  omega0 : (bs.drop 136).take 8 = encode o 8 h.omega0
  omegaLambda : (bs.drop 144).take 8 = encode o 8 h.omegaLambda
  hubbleParam : (bs.drop 152).take 8 = encode o 8 h.hubbleParam

/-- A Fortran record: the data between two copies of its length. -/
def record (o : Order) (bs : List Byte) : List Byte :=
  encode o 4 (BitVec.ofNat (8 * 4) bs.length) ++ (bs ++ encode o 4 (BitVec.ofNat (8 * 4) bs.length))

/-- A Gadget file: header, positions, velocities, ids, and possibly more. -/
def gadgetFile (o : Order) (hdr xb vb ib tail : List Byte) : List Byte :=
  record o hdr ++ (record o xb ++ (record o vb ++ (record o ib ++ tail)))

/-- Block of vectors in a file of byte order `o`: single precision, or double precision (read only on a machine of the
same byte order, see C64; the size of the block must not be ambiguous in 32 bits). -/
inductive Stored (narrow : Word 8 → Word 4) (sys o : Order) : List Byte → List V3 → Prop
  | single (vs : List V3) : Stored narrow sys o (vs.flatMap (encV o)) vs
  | double (vs : List V3d) (h : sys = o) (h0 : 0 < vs.length) (h1 : vs.length < 2 ^ 30) :
      Stored narrow sys o (vs.flatMap (encVd o)) (vs.map fun v => ⟨narrow v.x, narrow v.y, narrow v.z⟩)

/-- Block of ids: 64 bits, or 32 bits sign-extended. -/
inductive StoredIds (o : Order) : ℤ → List Byte → List ℤ → Prop
  | long (ws : List (Word 8)) : StoredIds o 64 (ws.flatMap (encode o 8)) (ws.map BitVec.toInt)
  | short (ws : List (Word 4)) : StoredIds o 32 (ws.flatMap (encode o 4)) (ws.map BitVec.toInt)

theorem decGadget_le {h : GadgetHeader} {bs : List Byte} (g : GadgetBytes .le h bs) : decGadget bs = h := by
  unfold decGadget
  dsimp only
  rw [g.nPart0, g.nPart1, g.mass1, g.time, g.redshift, g.nPartTotal0, g.nPartTotal1, g.boxSize, g.omega0,
    g.omegaLambda, g.hubbleParam]
  simp only [decode_encode]

theorem readGadgetHeaderRaw_ok {o : Order} {hdr tail : List Byte} {w : Word 4} (hl : hdr.length = 256) :
    ∃ r : Rdr, readGadgetHeaderRaw (encode o 4 w ++ (hdr ++ tail)) o = .ok (decGadget hdr, r) ∧ r.rest = tail := by
  have h0 : (⟨encode o 4 w ++ (hdr ++ tail), 0⟩ : Rdr).rest = encode o 4 w ++ (hdr ++ tail) := rfl
  obtain ⟨r1, e1, _, q1⟩ := readInt32_ok h0
  obtain ⟨r2, e2, _, q2⟩ := Rdr.readFull_ok q1 hl
  refine ⟨r2, ?_, q2⟩
  unfold readGadgetHeaderRaw
  refine Res.bind_ok e1 ?_
  dsimp only
  rw [e2]

theorem ofNat_mul (a n : ℕ) : BitVec.ofNat (8 * 4) (a * n) = BitVec.ofNat (8 * 4) a * BitVec.ofNat (8 * 4) n := by
  apply BitVec.eq_of_toNat_eq
  simp

theorem mod_ne (m n : ℕ) (hm : m = 4294967296) (h0 : 0 < n) (h1 : n < 1073741824) : 12 * n % m ≠ 24 * n % m := by
  intro h
  obtain ⟨k, hk⟩ := (Nat.modEq_iff_dvd' (by omega : 12 * n ≤ 24 * n)).mp h
  have hk' : n * 3 = 1073741824 * k := by
    have : 24 * n - 12 * n = 4 * (n * 3) := by omega
    rw [this, hm, show (4294967296 : ℕ) = 4 * 1073741824 by norm_num, mul_assoc] at hk
    exact Nat.eq_of_mul_eq_mul_left (by norm_num) hk
  have h3 : 3 ∣ k := by
    refine Nat.Coprime.dvd_of_dvd_mul_left (show Nat.Coprime 3 1073741824 by decide) ⟨n, ?_⟩
    rw [← hk', mul_comm]
  obtain ⟨l, rfl⟩ := h3
  have hn : n = 1073741824 * l := by
    refine Nat.eq_of_mul_eq_mul_right (show 0 < 3 by norm_num) ?_
    rw [hk']
    ring
  rcases Nat.eq_zero_or_pos l with rfl | hl
  · rw [hn, mul_zero] at h0
    exact absurd h0 (lt_irrefl 0)
  · have := Nat.mul_le_mul_left 1073741824 (show 1 ≤ l from hl)
    rw [← hn, mul_one] at this
    exact absurd h1 (not_lt.mpr this)

theorem ambiguous {n : ℕ} (h0 : 0 < n) (h1 : n < 2 ^ 30) :
    BitVec.ofNat (8 * 4) (12 * n) ≠ BitVec.ofNat (8 * 4) (24 * n) := by
  intro hc
  have h := congrArg BitVec.toNat hc
  rw [BitVec.toNat_ofNat, BitVec.toNat_ofNat] at h
  exact mod_ne (2 ^ (8 * 4)) n (by norm_num) h0 (lt_of_lt_of_eq h1 (by norm_num)) h

theorem readBlock_ok {fl : FloatOps} {sys o : Order} {gh : GadgetHeader} {r : Rdr} {bs tail : List Byte}
    {xs buf : List V3} (hs : Stored fl.narrow sys o bs xs) (hn : gh.nPart1.toNat = xs.length)
    (hb : buf.length = xs.length)
    (hr : r.rest = encode o 4 (BitVec.ofNat (8 * 4) bs.length) ++ (bs ++ tail)) :
    ∃ r' : Rdr, readBlock fl sys gh r o buf = .ok (xs, r') ∧ r'.rest = tail := by
  obtain ⟨r1, e1, _, q1⟩ := readInt32_ok hr
  have hN : gh.nPart1 = BitVec.ofNat (8 * 4) xs.length := by rw [← hn]; simp
  have h12 : 4 * 3 * gh.nPart1 = BitVec.ofNat (8 * 4) (12 * xs.length) := by
    rw [ofNat_mul, ← hN]
    rfl
  cases hs with
  | single =>
    obtain ⟨r2, e2, _, q2⟩ := C64_vec (sys := sys) q1 hb
    refine ⟨r2, ?_, q2⟩
    unfold readBlock
    refine Res.bind_ok e1 ?_
    dsimp only
    rw [if_pos (by rw [h12, flatMap_length (encV_length o)])]
    exact e2
  | double vs h h0 h1 =>
    subst h
    rw [List.length_map] at hb h12
    obtain ⟨r2, e2, _, q2⟩ := C64_vec64_partial (narrow := fl.narrow) q1 hb
    refine ⟨r2, ?_, q2⟩
    unfold readBlock
    refine Res.bind_ok e1 ?_
    dsimp only
    rw [flatMap_length (encVd_length sys), h12]
    rw [if_neg, if_pos]
    · exact e2
    · rw [show 24 * vs.length = 12 * vs.length * 2 by ring, ofNat_mul (12 * vs.length) 2]
      rfl
    · exact ambiguous h0 h1

theorem readIds_ok {sys o : Order} {idSize : ℤ} {r : Rdr} {bs tail : List Byte} {ids : List ℤ} {buf : List (Word 8)}
    (hs : StoredIds o idSize bs ids) (hb : buf.length = ids.length) (hr : r.rest = bs ++ tail) :
    ∃ out r', readIds sys r o buf idSize = Res.ok (out, r') ∧ out.map BitVec.toInt = ids := by
  unfold readIds
  cases hs with
  | long ws =>
    rw [List.length_map] at hb
    obtain ⟨r1, e1, _, _⟩ := C64_int64 (sys := sys) hr hb
    refine ⟨ws, r1, ?_, rfl⟩
    rw [if_pos rfl, e1]
    rfl
  | short ws =>
    rw [List.length_map] at hb
    obtain ⟨out, r1, e1, _, _, ho⟩ := C64_int32 (sys := sys) hr hb
    refine ⟨out, r1, ?_, ho⟩
    rw [if_neg (by norm_num), if_pos rfl, e1]
    rfl

/-- C96, `ReadGadgetParticlesAt` and `ReadGadget` on little endian files: for any number of particles, both id sizes and
single or double precision blocks, the reader returns the stored positions (wrapped), velocities (scaled) and ids, in
order and whatever the buffers held, and ignores what follows. The machine may have either byte order.
Missing: big endian files (`C96_big_endian_counterexample`). -/
theorem C96_read_partial (fl : FloatOps) (sys : Order) (h : GadgetHeader) (hdr xb vb ib tail : List Byte)
    (xs vs : List V3) (ids : List ℤ) (idSize : ℤ)
    (hh : GadgetBytes .le h hdr) (hx : Stored fl.narrow sys .le xb xs) (hv : Stored fl.narrow sys .le vb vs)
    (hi : StoredIds .le idSize ib ids)
    (nx : xs.length = h.nPart1.toNat) (nv : vs.length = h.nPart1.toNat) (ni : ids.length = h.nPart1.toNat) :
    (∀ xBuf vBuf idBuf, xBuf.length = h.nPart1.toNat → vBuf.length = h.nPart1.toNat →
      idBuf.length = h.nPart1.toNat →
      ∃ out, readGadgetParticlesAt fl sys (gadgetFile .le hdr xb vb ib tail) .le xBuf vBuf idBuf idSize =
        .ok (xs.map (V3.map (fl.wrap h.boxSize)), vs.map (V3.map (fl.scale h.time)), out) ∧
        out.map BitVec.toInt = ids) ∧
    (∃ hd out, readGadget fl sys (gadgetFile .le hdr xb vb ib tail) .le idSize =
        .ok (hd, xs.map (V3.map (fl.wrap h.boxSize)), vs.map (V3.map (fl.scale h.time)), out) ∧
        hd.count.toNat = h.nPart1.toNat ∧ out.map BitVec.toInt = ids) := by
  have eh : ∃ r : Rdr, readGadgetHeaderRaw (gadgetFile .le hdr xb vb ib tail) .le = .ok (h, r) ∧
      r.rest = encode .le 4 (BitVec.ofNat (8 * 4) hdr.length) ++ (encode .le 4 (BitVec.ofNat (8 * 4) xb.length) ++
        (xb ++ (encode .le 4 (BitVec.ofNat (8 * 4) xb.length) ++ (encode .le 4 (BitVec.ofNat (8 * 4) vb.length) ++
        (vb ++ (encode .le 4 (BitVec.ofNat (8 * 4) vb.length) ++ (encode .le 4 (BitVec.ofNat (8 * 4) ib.length) ++
        (ib ++ (encode .le 4 (BitVec.ofNat (8 * 4) ib.length) ++ tail))))))))) := by
    have := readGadgetHeaderRaw_ok (o := .le) (hdr := hdr) (w := BitVec.ofNat (8 * 4) hdr.length)
      (tail := encode .le 4 (BitVec.ofNat (8 * 4) hdr.length) ++ (encode .le 4 (BitVec.ofNat (8 * 4) xb.length) ++
        (xb ++ (encode .le 4 (BitVec.ofNat (8 * 4) xb.length) ++ (encode .le 4 (BitVec.ofNat (8 * 4) vb.length) ++
        (vb ++ (encode .le 4 (BitVec.ofNat (8 * 4) vb.length) ++ (encode .le 4 (BitVec.ofNat (8 * 4) ib.length) ++
        (ib ++ (encode .le 4 (BitVec.ofNat (8 * 4) ib.length) ++ tail)))))))))) hh.len
    rw [decGadget_le hh] at this
    unfold gadgetFile record
    simpa only [List.append_assoc] using this
  have main : ∀ xBuf vBuf idBuf, xBuf.length = h.nPart1.toNat → vBuf.length = h.nPart1.toNat →
      idBuf.length = h.nPart1.toNat →
      ∃ out, readGadgetParticlesAt fl sys (gadgetFile .le hdr xb vb ib tail) .le xBuf vBuf idBuf idSize =
        .ok (xs.map (V3.map (fl.wrap h.boxSize)), vs.map (V3.map (fl.scale h.time)), out) ∧
        out.map BitVec.toInt = ids := by
    intro xBuf vBuf idBuf lx lv li
    obtain ⟨r0, e0, q0⟩ := eh
    obtain ⟨r1, e1, _, q1⟩ := readInt32_ok q0
    obtain ⟨r2, e2, q2⟩ := readBlock_ok (gh := h) (buf := xBuf) hx nx.symm (lx.trans nx.symm) q1
    obtain ⟨r3, e3, _, q3⟩ := readInt32_ok q2
    obtain ⟨r4, e4, q4⟩ := readBlock_ok (gh := h) (buf := vBuf) hv nv.symm (lv.trans nv.symm) q3
    obtain ⟨r5, e5, _, q5⟩ := readInt32_ok q4
    obtain ⟨r6, e6, _, q6⟩ := readInt32_ok q5
    obtain ⟨out, r7, e7, ho⟩ := readIds_ok (sys := sys) (buf := idBuf) hi (li.trans ni.symm) q6
    refine ⟨out, ?_, ho⟩
    have hc : ∀ n : ℕ, n = h.nPart1.toNat → ¬ BitVec.ofNat (8 * 8) n ≠ (standardize h).count := by
      rintro _ rfl
      rw [not_not, ← (C67_low_word h).1]
      simp
    unfold readGadgetParticlesAt
    refine Res.bind_ok e0 (Res.bind_ok e1 ?_)
    dsimp only
    rw [if_neg (hc _ lx), if_neg (hc _ lv), if_neg (hc _ li)]
    refine Res.bind_ok (a := (xs, r2)) (by rw [e2]; rfl) (Res.bind_ok e3
      (Res.bind_ok (a := (vs, r4)) (by rw [e4]; rfl) (Res.bind_ok e5 (Res.bind_ok e6 (Res.bind_ok e7 rfl)))))
  refine ⟨main, ?_⟩
  obtain ⟨r0, e0, _⟩ := eh
  obtain ⟨out, e, ho⟩ := main (List.replicate (standardize h).count.toNat ⟨0, 0, 0⟩)
    (List.replicate (standardize h).count.toNat ⟨0, 0, 0⟩) (List.replicate (standardize h).count.toNat 0)
    (by rw [List.length_replicate, (C67_low_word h).1]) (by rw [List.length_replicate, (C67_low_word h).1])
    (by rw [List.length_replicate, (C67_low_word h).1])
  refine ⟨standardize h, out, ?_, (C67_low_word h).1, ho⟩
  unfold readGadget
  exact Res.bind_ok e0 (Res.bind_ok e rfl)

/-- A header with two particles. -/
def exGadget : GadgetHeader := ⟨0, 2, 1, 2, 3, 0, 2, 4, 5, 6, 7⟩

/-- Its bytes. -/
def exGadgetBytes (o : Order) : List Byte :=
  [0, 2, 0, 0, 0, 0].flatMap (encode o 4) ++ [0, 1, 0, 0, 0, 0, 2, 3].flatMap (encode o 8) ++
    [0, 0, 0, 2, 0, 0, 0, 0, 0, 0].flatMap (encode o 4) ++ [4, 5, 6, 7].flatMap (encode o 8) ++
    [0, 0].flatMap (encode o 4) ++ List.replicate 88 0

theorem exGadgetBytes_ok (o : Order) : GadgetBytes o exGadget (exGadgetBytes o) := by
  constructor <;> cases o <;> decide +kernel

example : ∃ hd out, readGadget ⟨fun w => w.setWidth 32, fun _ x => x, fun _ x => x⟩ .be
    (gadgetFile .le (exGadgetBytes .le) ([⟨1, 2, 3⟩, ⟨4, 5, 6⟩].flatMap (encV .le))
      ([⟨7, 8, 9⟩, ⟨10, 11, 12⟩].flatMap (encV .le)) ([5, -1].flatMap (encode .le 4)) []) .le 32 =
    .ok (hd, [⟨1, 2, 3⟩, ⟨4, 5, 6⟩], [⟨7, 8, 9⟩, ⟨10, 11, 12⟩], out) ∧ hd.count.toNat = 2 ∧
    out.map BitVec.toInt = [5, -1] :=
  (C96_read_partial _ .be exGadget _ _ _ _ [] _ _ _ 32 (exGadgetBytes_ok .le) (.single _) (.single _) (.short _)
    rfl rfl rfl).2

/-- A wrong number of particles in any of the three buffers is refused. -/
theorem C96_lengths {fl : FloatOps} {sys o : Order} {file : List Byte} {xs vs : List V3} {ids : List (Word 8)}
    {idSize : ℤ} {out : List V3 × List V3 × List (Word 8)}
    (e : readGadgetParticlesAt fl sys file o xs vs ids idSize = .ok out) :
    ∃ h r, readGadgetHeaderRaw file o = .ok (h, r) ∧ BitVec.ofNat 64 xs.length = (standardize h).count ∧
      BitVec.ofNat 64 vs.length = (standardize h).count ∧ BitVec.ofNat 64 ids.length = (standardize h).count ∧
      (idSize = 32 ∨ idSize = 64) := by
  unfold readGadgetParticlesAt at e
  cases e0 : readGadgetHeaderRaw file o with
  | err => rw [e0] at e; exact absurd e (by simp [bind, Res.bind])
  | panic => rw [e0] at e; exact absurd e (by simp [bind, Res.bind])
  | ok p =>
    obtain ⟨h, r⟩ := p
    rw [e0] at e
    change Res.bind (readInt32 r o) _ = _ at e
    cases e1 : readInt32 r o with
    | err => rw [e1] at e; exact absurd e (by simp [Res.bind])
    | panic => rw [e1] at e; exact absurd e (by simp [Res.bind])
    | ok p1 =>
      rw [e1] at e
      simp only [Res.bind] at e
      by_cases c1 : BitVec.ofNat (8 * 8) xs.length ≠ (standardize h).count
      · rw [if_pos c1] at e; exact absurd e (by simp)
      rw [if_neg c1] at e
      by_cases c2 : BitVec.ofNat (8 * 8) vs.length ≠ (standardize h).count
      · rw [if_pos c2] at e; exact absurd e (by simp)
      rw [if_neg c2] at e
      by_cases c3 : BitVec.ofNat (8 * 8) ids.length ≠ (standardize h).count
      · rw [if_pos c3] at e; exact absurd e (by simp)
      rw [if_neg c3] at e
      refine ⟨h, r, rfl, not_not.mp c1, not_not.mp c2, not_not.mp c3, ?_⟩
      by_contra hc
      rw [not_or] at hc
      have nb : ∀ {α β : Type} (r : Res α) (f : α → Res β), (∀ a b, f a ≠ .ok b) → ∀ b, Res.bind r f ≠ .ok b := by
        intro α β r f hf b
        cases r with
        | ok a => exact hf a b
        | err => simp [Res.bind]
        | panic => simp [Res.bind]
      refine nb _ _ (fun a b => ?_) _ e
      refine nb _ _ (fun a b => ?_) _
      refine nb _ _ (fun a b => ?_) _
      refine nb _ _ (fun a b => ?_) _
      refine nb _ _ (fun a b => ?_) _
      unfold readIds
      rw [if_neg hc.2, if_neg hc.1]
      simp [bind, Res.bind]

/-- C96 fails for big endian files: `ReadGadgetHeader` takes the bytes of the count in the wrong order, whatever the
count is. -/
theorem C96_big_endian_counterexample (h : GadgetHeader) (hdr rest : List Byte) (hh : GadgetBytes .be h hdr) :
    ∃ g r, readGadgetHeaderRaw (record .be hdr ++ rest) .be = .ok (g, r) ∧
      (standardize g).count.toNat = (decode .le 4 (encode .be 4 h.nPart1)).toNat := by
  obtain ⟨r, e, _⟩ := readGadgetHeaderRaw_ok (o := .be) (hdr := hdr) (w := BitVec.ofNat (8 * 4) hdr.length)
    (tail := encode .be 4 (BitVec.ofNat (8 * 4) hdr.length) ++ rest) hh.len
  refine ⟨decGadget hdr, r, ?_, ?_⟩
  · unfold record
    simpa only [List.append_assoc] using e
  · rw [(C67_low_word _).1]
    unfold decGadget
    dsimp only
    rw [hh.nPart1]

example : ∃ g r, readGadgetHeaderRaw (record .be (exGadgetBytes .be) ++ []) .be = .ok (g, r) ∧
    (standardize g).count.toNat = 2 * 256 ^ 3 :=
  C96_big_endian_counterexample exGadget _ [] (exGadgetBytes_ok .be)

/-! ## C97 -/

/-- C97: positions within one box width of the box are moved to the equivalent position inside it. -/
theorem C97_wrap (L x : ℚ) (h0 : -L ≤ x) (h1 : x < 2 * L) :
    0 ≤ wrapDistance L x ∧ wrapDistance L x < L ∧ ∃ k : ℤ, wrapDistance L x = x + k * L := by
  unfold wrapDistance
  split_ifs with h2 h3
  · exact ⟨by linarith, by linarith, 1, by push_cast; ring⟩
  · exact ⟨by linarith, by linarith, -1, by push_cast; ring⟩
  · exact ⟨by linarith, by linarith, 0, by push_cast; ring⟩

/-- C97: positions inside the box are unchanged; those beyond the range end up outside the box. -/
theorem C97_wrap_range (L x : ℚ) (hL : 0 < L) :
    (0 ≤ x → x < L → wrapDistance L x = x) ∧
    (0 ≤ wrapDistance L x ∧ wrapDistance L x < L → -L ≤ x ∧ x < 2 * L) := by
  unfold wrapDistance
  constructor
  · intro h0 h1
    rw [if_neg (not_lt.mpr h0), if_neg (not_le.mpr h1)]
  · split_ifs with h2 h3
    · rintro ⟨h, h'⟩
      exact ⟨by linarith, by linarith⟩
    · rintro ⟨h, h'⟩
      exact ⟨by linarith, by linarith⟩
    · rintro ⟨h, h'⟩
      exact ⟨by linarith, by linarith⟩

example : wrapDistance 10 (-3) = 7 ∧ wrapDistance 10 10 = 0 := by decide +kernel

end Verif.Io
