import Verif.Proofs.Register
import Verif.Proofs.Transaction

/-!
# C12 – registers R4..R9; C48 – context extensions and spending proofs
-/

namespace Verif
open Spec

section
variable {G B T : Type}

/-- C12: registers are made from a map exactly when there is no gap: every register before a defined one is defined. -/
theorem C12_of_map (m : FMap NmId (RegVal G B)) (hm : m.Ok) :
    (Regs.ofMap m).isSome ↔ ∀ r r' : NmId, r.toNat < r'.toNat → m.contains r' = true → m.contains r = true :=
  Regs.ofMap_isSome m hm

/-- C12: the registers made from a map hold for every id what the map holds, and nothing else. -/
theorem C12_to_map (m : FMap NmId (RegVal G B)) (hm : m.Ok) (rs : Regs G B) (h : Regs.ofMap m = some rs) :
    rs.length = m.length ∧ ∀ r : NmId, rs.toMap.get r = m.get r := by
  obtain ⟨h1, h2⟩ := Regs.ofMap_spec hm h
  exact ⟨h1, fun r => by rw [Regs.toMap_get]; exact h2 r⟩

/-- C12: converting registers to a map and back loses nothing. -/
theorem C12_map_roundtrip (rs : Regs G B) (h : rs.length ≤ 6) : Regs.ofMap rs.toMap = some rs :=
  Regs.ofMap_toMap rs h

/-- C12: lookup by `get_constant` in registers made from constants returns the constant stored under that id, and `None`
for undefined ids; it never fails. -/
theorem C12_get_constant (m : FMap NmId (Constant G B)) (hm : m.Ok) (rs : Regs G B) (h : Regs.new m = some rs) (r : NmId) :
    rs.getConstant r = .ok (m.get r) := by
  unfold Regs.new at h
  have hm' : FMap.Ok (m.map fun p => (p.1, RegVal.parsed p.2)) := by
    unfold FMap.Ok at hm ⊢
    simpa [Function.comp_def] using hm
  obtain ⟨_, h2⟩ := Regs.ofMap_spec hm' h
  unfold Regs.getConstant
  rw [show NmId.startIndex = 4 from rfl, h2 r]
  have hg : ∀ m : FMap NmId (Constant G B), FMap.get (m.map fun p => (p.1, RegVal.parsed p.2)) r =
      (m.get r).map RegVal.parsed := by
    intro m
    induction m with
    | nil => rfl
    | cons p m ih =>
      obtain ⟨k, v⟩ := p
      simp only [List.map_cons, FMap.get]
      split
      · rfl
      · exact ih
  rw [hg]
  cases m.get r <;> rfl

/-- C12: the same for registers read from bytes, whose values may be tuples. -/
theorem C12_get_constant_read (rs : Regs G B) (utf8 : Bytes → Bool) (bwf : B → Prop) (h : GoodRegs utf8 bwf rs) (r : NmId) :
    match rs.toMap.get r with
    | none => rs.getConstant r = .ok none
    | some v => ∃ c, v.asConstant = .ok c ∧ GoodConst utf8 bwf c ∧ rs.getConstant r = .ok (some c) := by
  rw [Regs.toMap_get]
  unfold Regs.getConstant
  rw [show NmId.startIndex = 4 from rfl]
  cases e : rs[r.toNat - 4]? with
  | none => rfl
  | some v =>
    have hv := h.2 v (List.mem_of_getElem? e)
    cases v with
    | parsed c => exact ⟨c, rfl, hv, rfl⟩
    | tupleExpr l =>
      obtain ⟨a, b, c⟩ := RItem.value_typed utf8 bwf (.tuple l) (by rw [GoodItem]; exact hv)
      rw [RItem.tpe] at a b c
      rw [RItem.value] at a
      exact ⟨⟨.tuple (RItem.tpes l), .tup (RItem.values l)⟩, rfl, ⟨b, c, a⟩, rfl⟩
    | invalid b => exact hv.elim

/-- C12 fails for `get`: it uses the id (4..9) as the position, so it returns `None` for every id when there are at most
four registers, and the value of R8 for R4. -/
theorem C12_get_violates (rs : Regs G B) (h : rs.length ≤ 6) :
    (rs.length ≤ 4 → ∀ r, rs.get r = none) ∧ rs.get .R4 = rs.toMap.get .R8 ∧ rs.get .R5 = rs.toMap.get .R9 ∧
      ∀ r, r ≠ .R4 → r ≠ .R5 → rs.get r = none := by
  refine ⟨fun h4 r => ?_, ?_, ?_, fun r h1 h2 => ?_⟩
  · unfold Regs.get
    rw [List.getElem?_eq_none_iff]
    have := Regs.toNat_ge r
    omega
  · rw [Regs.toMap_get]; rfl
  · rw [Regs.toMap_get]; rfl
  · unfold Regs.get
    rw [List.getElem?_eq_none_iff]
    cases r <;> simp [NmId.toNat] at h1 h2 ⊢ <;> omega

/-- C12: what is true of `get`: it answers only from the registers. -/
theorem C12_get_partial (rs : Regs G B) (r : NmId) (v : RegVal G B) (h : rs.get r = some v) : v ∈ rs :=
  List.mem_of_getElem? h

/-- C12: register names: printing and reading, and reading accepts nothing else. -/
theorem C12_names (r : NmId) (s : List Char) : NmId.ofStr s = .ok r ↔ s = r.toStr :=
  ⟨NmId.toStr_ofStr, fun h => h ▸ NmId.ofStr_toStr r⟩

/-- C12: the reader of register names does not refuse a name that is one character of two bytes in UTF-8: it panics, and on no other
name. -/
theorem C12_names_panic (s : List Char) : NmId.ofStr s = .panic ↔ ∃ c : Char, s = [c] ∧ 0x80 ≤ c.toNat ∧ c.toNat ≤ 0x7FF := by
  constructor
  · intro h
    unfold NmId.ofStr at h
    split at h
    · rename_i d
      split at h
      · rename_i hd
        simp only [] at h
        split at h
        · rename_i hi
          obtain ⟨h1, h2⟩ := hi
          simp only [NmId.startIndex, NmId.endIndex] at h1 h2
          have hc : d.toNat = 52 ∨ d.toNat = 53 ∨ d.toNat = 54 ∨ d.toNat = 55 ∨ d.toNat = 56 ∨ d.toNat = 57 := by omega
          rcases hc with hc | hc | hc | hc | hc | hc <;> · rw [hc] at h; exact absurd h (by decide)
        · cases h
      · cases h
    · rename_i c
      split at h
      · rename_i hc
        exact ⟨c, rfl, hc⟩
      · cases h
    · cases h
  · rintro ⟨c, rfl, hc⟩
    unfold NmId.ofStr
    split
    · cases ‹[c] = _›
    · rename_i c' hcc
      cases hcc
      exact if_pos hc
    · rename_i h1 h2
      exact absurd rfl (h2 c)

/-- C12 witness: the name `é` makes the reader panic. -/
example : NmId.ofStr ['é'] = .panic := by decide

/-- C12: register numbers: an `i8` is accepted exactly when it is the number of the register. -/
theorem C12_numbers (v : BitVec 8) (r : NmId) : NmId.ofI8 v = .ok r ↔ v.toInt = (r.toNat : Int) := NmId.ofI8_iff v r

/-- C12: registers (at most six, constants or nested tuples of constants) are read back from their bytes. -/
theorem C12_roundtrip [DecidableEq G] (E : Sers G B T) (bwf : B → Prop) (twf : T → Prop) (h : GoodSers E bwf twf)
    (rs : Regs G B) (hg : GoodRegs E.utf8 bwf rs) :
    ∃ bs, rs.ser E = .ok bs ∧ ∀ rest, Regs.parse E (bs ++ rest) = some (rs, rest) :=
  Regs.rt E h rs hg

/-- C12: `sigma_parse_bytes` keeps bytes that are no register value as they are; such a register gives them back, but has no constant
and cannot be part of a box that is written. -/
theorem C12_unparseable [DecidableEq G] (E : Sers G B T) (bytes b : Bytes) (h : RegVal.parseBytes E bytes = .invalid b) :
    b = bytes ∧ (RegVal.parseBytes E bytes).serBytes E = .ok bytes ∧ (RegVal.parseBytes E bytes).asConstant = .err ∧
      ∀ rs : Regs G B, RegVal.parseBytes E bytes ∈ rs → ∀ bs, rs.ser E ≠ .ok bs := by
  have hb : b = bytes := by
    unfold RegVal.parseBytes at h
    split at h
    · next i _ _ => cases i <;> cases h
    · cases h; rfl
  subst hb
  rw [h]
  refine ⟨rfl, rfl, rfl, fun rs hm bs hs => ?_⟩
  unfold Regs.ser at hs
  obtain ⟨x, hx, h'⟩ := Outcome.bind_eq_ok.1 hs
  clear hs h h'
  induction rs generalizing x with
  | nil => cases hm
  | cons v rs ih =>
    rw [serMany] at hx
    obtain ⟨y, hy, hx⟩ := Outcome.bind_eq_ok.1 hx
    obtain ⟨z, hz, _⟩ := Outcome.bind_eq_ok.1 hx
    rcases List.mem_cons.1 hm with rfl | hm
    · cases hy
    · exact ih hm z hz

/-- C12: a good register value is given back by its own bytes. -/
theorem C12_bytes [DecidableEq G] (E : Sers G B T) (bwf : B → Prop) (twf : T → Prop) (h : GoodSers E bwf twf)
    (v : RegVal G B) (hv : GoodReg E.utf8 bwf v) : ∃ bs, v.serBytes E = .ok bs ∧ RegVal.parseBytes E bs = v := by
  obtain ⟨x, bs, h1, h2, h3⟩ := Regs.regVal_rt E h v hv
  refine ⟨bs, ?_, ?_⟩
  · cases v with
    | invalid b => exact hv.elim
    | parsed c => simp only [RegVal.serBytes, h2]
    | tupleExpr l => simp only [RegVal.serBytes, h2]
  · unfold RegVal.parseBytes
    have := h3 []
    rw [List.append_nil] at this
    rw [this]
    exact h1

/-- C12: whatever is read satisfies the invariant, so that it can be written again. -/
theorem C12_read_good [DecidableEq G] (E : Sers G B T) (bwf : B → Prop) (hb : BoxParsed E.bc bwf) (s r : Bytes)
    (rs : Regs G B) (h : Regs.parse E s = some (rs, r)) : GoodRegs E.utf8 bwf rs :=
  Regs.parsed E hb s rs r h

/-- C48: a context extension is read back, with its order. -/
theorem C48_extension [DecidableEq G] (E : Sers G B T) (bwf : B → Prop) (twf : T → Prop) (h : GoodSers E bwf twf)
    (m : Extension G B) (hm : GoodExt E.utf8 bwf m) :
    ∃ bs, m.ser E = .ok bs ∧ ∀ rest, Extension.parse E (bs ++ rest) = some (m, rest) :=
  Extension.rt E h m hm

/-- C48: a proof is read back. -/
theorem C48_proof (p : ProofBytes) (h : GoodProof p) (rest : Bytes) :
    ProofBytes.parse (p.ser ++ rest) = some (p, rest) :=
  ProofBytes.rt p h rest

/-- C48: a proof made of any bytes gives back these bytes, is the empty proof exactly for no bytes, and (up to 65535 bytes) is
written so that the same proof is read back. -/
theorem C48_proof_bytes (b : Bytes) :
    (ProofBytes.ofBytes b).toBytes = b ∧ (ProofBytes.ofBytes b = .empty ↔ b = []) ∧
    (b.length < 65536 → ∀ rest, ProofBytes.parse ((ProofBytes.ofBytes b).ser ++ rest) = some (ProofBytes.ofBytes b, rest)) := by
  cases b with
  | nil => exact ⟨rfl, by simp [ProofBytes.ofBytes], fun _ rest => ProofBytes.rt .empty trivial rest⟩
  | cons x l =>
    refine ⟨rfl, by simp [ProofBytes.ofBytes], fun h rest => ProofBytes.rt (.some (x :: l)) ?_ rest⟩
    simp only [GoodProof, List.length_cons] at h ⊢
    omega

/-- C48: a prover result (proof and extension) is read back. -/
theorem C48_prover_result [DecidableEq G] (E : Sers G B T) (bwf : B → Prop) (twf : T → Prop) (h : GoodSers E bwf twf)
    (p : ProverResult G B) (h1 : GoodProof p.proof) (h2 : GoodExt E.utf8 bwf p.extension) :
    ∃ bs, p.ser E = .ok bs ∧ ∀ rest, ProverResult.parse E (bs ++ rest) = some (p, rest) :=
  ProverResult.rt E h p ⟨h1, h2⟩

/-- C48: whatever is read satisfies the bounds. -/
theorem C48_read_good [DecidableEq G] (E : Sers G B T) (bwf : B → Prop) (hb : BoxParsed E.bc bwf) (s r : Bytes)
    (m : Extension G B) (h : Extension.parse E s = some (m, r)) : GoodExt E.utf8 bwf m :=
  Extension.parsed E hb s m r h

/-- C48, beyond the bound: the number of entries is cut to a byte, so a full extension (256 variables) is read back as the
empty one. -/
theorem C48_full_extension_lost [DecidableEq G] (E : Sers G B T) (m : Extension G B) (hm : m.length = 256) (bs : Bytes)
    (h : m.ser E = .ok bs) : ∃ r, Extension.parse E bs = some ([], r) := by
  unfold Extension.ser at h
  obtain ⟨b, h1, h2⟩ := Outcome.bind_eq_ok.1 h
  simp only [Outcome.pure_eq, Outcome.ok.injEq, hm] at h2
  subst h2
  refine ⟨b, ?_⟩
  unfold Extension.parse
  rw [Parser.bind_some (getU8_put _ _)]
  rfl

/-- C48, beyond the bound: a proof of 65536 bytes is read back as no proof, its bytes being left in the stream; and the
proof `Some([])` is read back as `Empty`. -/
theorem C48_long_proof_lost (b : Bytes) (h : b.length = 65536) (rest : Bytes) :
    ProofBytes.parse ((ProofBytes.some b).ser ++ rest) = some (.empty, b ++ rest) ∧
    ProofBytes.parse ((ProofBytes.some []).ser ++ rest) = some (.empty, rest) := by
  constructor
  · unfold ProofBytes.ser ProofBytes.parse
    dsimp only
    rw [h, List.append_assoc, Parser.bind_some (getU16_put _ _)]
    rfl
  · unfold ProofBytes.ser ProofBytes.parse
    simp only [List.append_assoc]
    rw [Parser.bind_some (getU16_put _ _)]
    rfl

end

/-! ## Cases -/

/-- A one byte stand-in for ErgoTrees. -/
def toyTree : BoxCodec Byte where
  ser b := .ok [b]
  parse := getU8

/-- Parameters for the examples. -/
def toySers : Sers (Fin 3) Empty Byte where
  utf8 := fun _ => true
  pc := toyCodec
  bc := noBox
  tc := toyTree
  H := sumHash

theorem toySers_good : GoodSers toySers (fun _ => True) (fun _ => True) where
  box := fun b => b.elim
  boxNE := NonExp.fail
  tree := fun b _ => ⟨[b], rfl, fun _ => rfl⟩
  treeNE := NonExp.getU8

/-- `Int` constants. -/
def intConst (n : BitVec 32) : Constant (Fin 3) Empty := ⟨.int, .int n⟩

theorem intConst_good (n : BitVec 32) : GoodConst (fun _ => true) (fun _ => True) (intConst n) := by
  refine ⟨?_, ?_, ?_⟩ <;> simp [intConst, WfType, NoFunc, WellTyped]

/-- A map with R4 and R5 in the other order, and one with a gap. -/
example : Regs.new [(.R5, intConst 5), (.R4, intConst 4)] = some [.parsed (intConst 4), .parsed (intConst 5)] ∧
    (Regs.new [(.R6, intConst 5), (.R4, intConst 4)]).isSome = false := ⟨rfl, rfl⟩

example : GoodRegs toySers.utf8 (fun _ => True)
    [.parsed (intConst 4), .tupleExpr [.const (intConst 1), .tuple [.const (intConst 2), .const (intConst 3)]]] := by
  refine ⟨by decide, ?_⟩
  intro v hv
  simp only [List.mem_cons, List.not_mem_nil, or_false] at hv
  rcases hv with rfl | rfl
  · exact intConst_good 4
  · simp [GoodReg, GoodItems, GoodItem, toySers, intConst_good]

/-- An operation (`HEIGHT`, code 163) is no register value; `Int` 2 with a byte behind it is read without that byte. -/
example : RegVal.parseBytes toySers [163] = .invalid [163] ∧ RegVal.parseBytes toySers [4, 4, 9] = .parsed (intConst 2) :=
  ⟨rfl, rfl⟩

example : GoodExt toySers.utf8 (fun _ => True) [(7, intConst 1), (0, intConst 2)] where
  keys := by unfold FMap.Ok; decide
  count := by decide
  consts := by
    intro p hp
    simp only [List.mem_cons, List.not_mem_nil, or_false] at hp
    rcases hp with rfl | rfl <;> exact intConst_good _

example : Extension.ser toySers [(7, intConst 1), (0, intConst 2)] = .ok [2, 7, 4, 2, 0, 4, 4] := by decide +kernel

/-- A full extension exists and is written. -/
example : ∃ bs, Extension.ser toySers ((List.range 256).map fun i => (BitVec.ofNat 8 i, intConst 0)) = .ok bs := by
  obtain ⟨b, e, _⟩ := serMany_rt (Extension.entry_rt toySers toySers_good)
    ((List.range 256).map fun i => (BitVec.ofNat 8 i, intConst 0)) (by
      intro p hp
      obtain ⟨i, _, rfl⟩ := List.mem_map.1 hp
      exact intConst_good 0)
  exact ⟨_, by unfold Extension.ser; rw [e]; rfl⟩

end Verif
