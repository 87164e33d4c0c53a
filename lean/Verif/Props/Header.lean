import Verif.Proofs.Header

set_option linter.unusedSimpArgs false
set_option linter.unusedVariables false

/-!
# C34 – block headers
-/

namespace Verif
open Spec

section
variable {G : Type} [DecidableEq G]

/-- C34: every good header is written, and reading it back in any stream gives the same fields, the id being the hash of the
bytes, and leaves what followed. -/
theorem C34_roundtrip (H : HashFn) (pc : PointCodec G) (h : Header G) (g : GoodBlockHeader h) :
    ∃ bs, h.ser pc = .ok bs ∧ ∀ rest, Header.parse H pc (bs ++ rest) = some ({ h with id := H bs }, rest) :=
  Header.parse_ser H pc h g

/-- C34: a header whose id field is the hash of its bytes is read back exactly. -/
theorem C34_roundtrip_same (H : HashFn) (pc : PointCodec G) (h : Header G) (g : GoodBlockHeader h) (bs : Bytes)
    (e : h.ser pc = .ok bs) (hid : h.id = H bs) (rest : Bytes) : Header.parse H pc (bs ++ rest) = some (h, rest) := by
  obtain ⟨bs', e', hp⟩ := Header.parse_ser H pc h g
  rw [e] at e'
  cases e'
  rw [hp rest, ← hid]

/-- C34: whatever is read is a good header whose id is the hash of the bytes it is written to; so reading, writing and reading
again gives the same header. -/
theorem C34_read_good (H : HashFn) (pc : PointCodec G) (s r : Bytes) (h : Header G) (e : Header.parse H pc s = some (h, r)) :
    GoodBlockHeader h ∧ ∃ bs, h.ser pc = .ok bs ∧ h.id = H bs ∧ ∀ rest, Header.parse H pc (bs ++ rest) = some (h, rest) := by
  obtain ⟨g, bs, e1, e2⟩ := Header.parse_good H pc s r h e
  exact ⟨g, bs, e1, e2, C34_roundtrip_same H pc h g bs e1 e2⟩

/-- C34: two headers whose ids are the hashes of their bytes and that have the same id are the same header, unless their bytes
collide under the hash. -/
theorem C34_id_commits (H : HashFn) (pc : PointCodec G) (h h' : Header G) (g : GoodBlockHeader h) (g' : GoodBlockHeader h')
    (bs bs' : Bytes) (e : h.ser pc = .ok bs) (e' : h'.ser pc = .ok bs') (hid : h.id = H bs) (hid' : h'.id = H bs')
    (he : h.id = h'.id) : h = h' ∨ Collision H [bs] [bs'] := by
  by_cases hb : bs = bs'
  · subst hb
    have h1 := C34_roundtrip_same H pc h g bs e hid []
    have h2 := C34_roundtrip_same H pc h' g' bs e' hid' []
    rw [h1] at h2
    simp only [Option.some.injEq, Prod.mk.injEq, and_true] at h2
    exact Or.inl h2
  · exact Or.inr ⟨bs, by simp, bs', by simp, hb, by rw [← hid, ← hid', he]⟩

end

/-- A version 2 header. -/
def headerV2 : Header (Fin 3) :=
  { version := 2, id := List.replicate 32 0, parentId := List.replicate 32 1, adProofsRoot := List.replicate 32 2,
    stateRoot := List.replicate 33 3, transactionRoot := List.replicate 32 4, timestamp := 1600000000000#64,
    nBits := 0x1d00ffff#64, height := 471744#32, extensionRoot := List.replicate 32 5,
    solution := { minerPk := 2, onetimePk := none, nonce := [1, 2, 3, 4, 5, 6, 7, 8], distance := none }, votes := [4, 3, 0] }

/-- A version 1 header. -/
def headerV1 : Header (Fin 3) :=
  { headerV2 with version := 1,
                  solution := { minerPk := 2, onetimePk := some 1, nonce := [1, 2, 3, 4, 5, 6, 7, 8], distance := some (-300) } }

theorem headerV2_good : GoodBlockHeader headerV2 where
  parentId := by decide
  adProofsRoot := by decide
  stateRoot := by decide
  transactionRoot := by decide
  extensionRoot := by decide
  votes := by decide
  nBits := by decide
  nonce := by decide
  v1 := by intro h; exact absurd h (by decide)
  v2 := fun _ => ⟨rfl, rfl⟩

theorem headerV1_good : GoodBlockHeader headerV1 where
  parentId := by decide
  adProofsRoot := by decide
  stateRoot := by decide
  transactionRoot := by decide
  extensionRoot := by decide
  votes := by decide
  nBits := by decide
  nonce := by decide
  v1 := fun _ => ⟨rfl, -300, rfl, by
    have : (2 : Nat) ^ 9 ≤ 2 ^ (8 * 255 - 1) := Nat.pow_le_pow_right (by decide) (by decide)
    generalize 2 ^ (8 * 255 - 1) = M at *
    omega⟩
  v2 := fun h => absurd rfl h

/-- Both layouts occur, and a parsed header exists: the round trips and `C34_read_good` are not vacuous. -/
example : ∃ bs bs', headerV1.ser toyCodec = .ok bs ∧ headerV2.ser toyCodec = .ok bs' ∧ bs ≠ bs' ∧
    Header.parse sumHash toyCodec (bs' ++ [7]) = some ({ headerV2 with id := sumHash bs' }, [7]) := by
  obtain ⟨bs, e, _⟩ := C34_roundtrip sumHash toyCodec headerV1 headerV1_good
  obtain ⟨bs', e', h'⟩ := C34_roundtrip sumHash toyCodec headerV2 headerV2_good
  refine ⟨bs, bs', e, e', ?_, h' [7]⟩
  intro hb
  subst hb
  have h1 : headerV1.ser toyCodec = headerV2.ser toyCodec := by rw [e, e']
  exact absurd h1 (by decide +kernel)

/-- C34, violation: a difficulty above 32 bits is cut, so the header is not read back; and a version 2 header that carries the
version 1 solution fields loses them. -/
theorem C34_violation_fields (H : HashFn) :
    (∃ bs h', ({ headerV2 with nBits := 0x100000001#64 } : Header (Fin 3)).ser toyCodec = .ok bs ∧
      Header.parse H toyCodec bs = some (h', []) ∧ h'.nBits = 1#64) ∧
    (∃ bs h', ({ headerV1 with version := 2 } : Header (Fin 3)).ser toyCodec = .ok bs ∧
      Header.parse H toyCodec bs = some (h', []) ∧ h'.solution.distance = none ∧ headerV1.solution.distance = some (-300)) := by
  constructor
  · obtain ⟨bs, e, h⟩ := C34_roundtrip H toyCodec { headerV2 with nBits := 1#64 }
      { headerV2_good with nBits := by decide }
    refine ⟨bs, _, ?_, by have := h []; rwa [List.append_nil] at this, rfl⟩
    rw [← e]
    decide +kernel
  · obtain ⟨bs, e, h⟩ := C34_roundtrip H toyCodec headerV2 headerV2_good
    refine ⟨bs, _, ?_, by have := h []; rwa [List.append_nil] at this, rfl, rfl⟩
    rw [← e]
    decide +kernel

/-- C34, violation: a version 2 header whose nonce is shorter than 8 bytes is written and cannot be read. -/
theorem C34_violation_nonce {G : Type} [DecidableEq G] (H : HashFn) (pc : PointCodec G) (h : Header G)
    (g : GoodBlockHeader h) (hv : h.version = 2) (nonce : Bytes) (hn : nonce.length < 8) :
    ∃ bs, ({ h with solution := { h.solution with nonce := nonce } } : Header G).ser pc = .ok bs ∧
      Header.parse H pc bs = none := by
  refine ⟨Header.fields h ++ ([0] ++ (putPoint pc h.solution.minerPk ++ nonce)), ?_, ?_⟩
  · simp [Header.ser, AutolykosSolution.ser, hv, Header.serWithoutPow, Header.fields, putI8, putU8]
  · rw [Header.parse_fields H pc h [0] _ g.parentId g.adProofsRoot g.stateRoot g.transactionRoot g.extensionRoot g.votes
      g.nBits]
    · apply Parser.bind_none
      unfold Header.parseSolution
      rw [hv]
      simp only [show ((2 : Byte) = 1) = False by decide, ↓reduceIte]
      rw [Parser.bind_some (getPoint_putPoint pc _ _)]
      apply Parser.bind_none
      unfold readExact
      rw [if_neg (by omega)]
    · unfold Header.skipFields
      rw [hv]
      rfl

/-- C34, violation: the id is the hash of the bytes the library writes, not of the bytes it read: a header of version 2 or more
with unknown extra fields (1 to 255 bytes) gets the id of the header without them, so these bytes are not committed to. -/
theorem C34_violation_new_fields {G : Type} [DecidableEq G] (H : HashFn) (pc : PointCodec G) (h : Header G)
    (g : GoodBlockHeader h) (hv : 1 < h.version.toNat) :
    ∃ a b h', ∀ x : Bytes, x.length ≤ 255 →
      Header.parse H pc (a ++ BitVec.ofNat 8 x.length :: (x ++ b)) = some (h', []) := by
  obtain ⟨s, e1, e2⟩ := Header.parse_skip H pc h g
  refine ⟨Header.fields h, s, { h with id := H (h.serWithoutPow ++ s) }, fun x hx => ?_⟩
  have := e2 (BitVec.ofNat 8 x.length :: x) []
  simp only [List.append_nil, List.cons_append] at this
  apply this
  unfold Header.skipFields
  rw [if_pos hv, Parser.bind_some (getU8_cons _ _)]
  have hn : (BitVec.ofNat 8 x.length).toNat = x.length := by rw [BitVec.toNat_ofNat, Nat.mod_eq_of_lt (by omega)]
  rw [hn]
  split
  · rw [Parser.bind_some (readExact_append x s)]; rfl
  · rw [List.length_eq_zero_iff.1 (by omega : x.length = 0)]; rfl

example : (1 : Nat) < headerV2.version.toNat ∧ headerV2.version = 2 ∧ GoodBlockHeader headerV2 :=
  ⟨by decide, rfl, headerV2_good⟩

end Verif
