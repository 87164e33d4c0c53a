import Verif.Props.Ops
import Verif.Props.Subst

set_option linter.unusedSimpArgs false
set_option linter.unusedVariables false

/-!
# C72: what scripts read and compute besides arithmetic, logic and collections

Registers and variables, group elements, byte strings, authenticated trees and code taken from registers.
-/

namespace Verif
open Spec
variable {G B T : Type} [DecidableEq G] [DecidableEq B] [DecidableEq (Value G B)] (W : World G B T) (C : EvalCtx G B)

omit [DecidableEq G] [DecidableEq B] [DecidableEq (Value G B)] in
theorem ofLiterals_map {α : Type} (f : α → Literal G B) (l : List α) :
    Value.ofLiterals (l.map f) = l.map fun x => Value.ofLiteral (f x) := by
  induction l with
  | nil => rfl
  | cons a l ih => simp only [List.map_cons, Value.ofLiterals, ih]

/-- C72: the registers R0 to R3 hold the value, the script, the tokens and the creation information of the box, just as the properties
of the box give them. -/
theorem C72_registers (b : B) (script : Bytes) (hs : W.box.script b = .ok script) :
    (∃ v, Value.regOption W.box b 0 = .ok (.some v) ∧ Value.strictOp W C .extractAmount [.box b] = .ok v ∧
      Value.pureMethod W C 99 1 (.box b) [] = .ok v ∧ v = .long (W.box.value b)) ∧
    (∃ v, Value.regOption W.box b 1 = .ok (.some v) ∧ Value.strictOp W C .extractScriptBytes [.box b] = .ok v ∧ v = .collByte script) ∧
    (∃ v, Value.regOption W.box b 2 = .ok (.some v) ∧ Value.pureMethod W C 99 8 (.box b) [] = .ok v ∧
      IsColl v (.tuple [.coll .byte, .long]) ((W.box.tokens b).map fun t => .tup [.collByte t.1, .long t.2])) ∧
    (∃ v, Value.regOption W.box b 3 = .ok (.some v) ∧ Value.strictOp W C .extractCreationInfo [.box b] = .ok v ∧
      v = .tup [.int (W.box.creation b).1, .collByte (W.box.creation b).2]) := by
  refine ⟨⟨_, rfl, rfl, rfl, rfl⟩, ⟨.collByte script, ?_, ?_, rfl⟩, ⟨Value.tokensValue (W.box.tokens b), ?_, rfl, .items _ _ (by intro h; cases h)⟩,
    ⟨_, rfl, rfl, rfl⟩⟩
  · show (Res.ofOutcome .notFound (match W.box.script b with
      | .ok s => .ok (some { tpe := .collByte, v := .collByte s })
      | _ => .panic) >>= fun c : Option (Constant G B) => pure (Value.ofOption (c.map fun c => Value.ofLiteral c.v))) = _
    rw [hs]; rfl
  · show (Res.ofOutcome .sigmaSerialization (W.box.script b) >>= fun x => pure (Value.collByte x)) = _
    rw [hs]; rfl
  · have e : Value.regOption W.box b 2 = .ok (.some (.coll (.tuple [.collByte, .long])
        (Value.ofLiterals ((W.box.tokens b).map fun t => .tup [.collByte t.1, .long t.2])))) := rfl
    rw [e, ofLiterals_map]
    rfl

/-- C72: the other registers are those the box was given: absent is `None`, and no register above R9 or below R0 exists. -/
theorem C72_additional (b : B) (i : Byte) (r : NmId) (hr : NmId.ofI8 i = .ok r) (c : Option (Constant G B)) (hc : W.box.reg b r = .ok c) :
    Value.regOption W.box b i = .ok (c.elim .none fun c => .some (Value.ofLiteral c.v)) ∧ 4 ≤ i.toNat ∧ i.toNat ≤ 9 := by
  have hi : 4 ≤ i.toNat ∧ i.toNat ≤ 9 := by
    have : ∀ i : Byte, (match NmId.ofI8 i with | .ok _ => true | _ => false) = true → 4 ≤ i.toNat ∧ i.toNat ≤ 9 := by decide +kernel
    exact this i (by rw [hr])
  refine ⟨?_, hi⟩
  have e : RegId.ofI8 i = .ok (.nm r) := by
    have h : ∀ i : Byte, 4 ≤ i.toNat → i.toNat ≤ 9 → 0 ≤ i.toInt := by decide +kernel
    unfold RegId.ofI8
    rw [if_neg (by have := h i hi.1 hi.2; omega)]
    split <;> first | omega | skip
    rw [hr]; rfl
  unfold Value.regOption
  rw [e]
  show (Res.ofOutcome .notFound (W.box.reg b r) >>= fun c : Option (Constant G B) => pure (Value.ofOption (c.map fun c => Value.ofLiteral c.v))) = _
  rw [hc]
  cases c <;> rfl

/-- The first register of a box without registers. -/
example (b : B) (h : W.box.reg b .R4 = .ok none) : Value.regOption W.box b 4 = .ok .none :=
  (C72_additional W b 4 .R4 (by decide) none h).1

/-- C72: reading any other register is an error, whatever the box. -/
theorem C72_register_range (b : B) (i : Byte) (h : i.toInt < 0 ∨ 9 < i.toInt) : Value.regOption W.box b i = .err .registerIdOutOfBounds := by
  have hh : ∀ i : Byte, i.toInt < 0 ∨ 9 < i.toInt → (match RegId.ofI8 i with | .err .registerIdOutOfBounds => true | _ => false) = true := by
    decide +kernel
  have e : RegId.ofI8 i = .err .registerIdOutOfBounds := by
    have := hh i h
    revert this
    split
    · intro _; assumption
    · intro h; cases h
  unfold Value.regOption
  rw [e]
  rfl

/-- C72: `getVar[T](id)` is `None` if the input has no variable `id`, its value if it has one of type `T`, and an error if the variable is
of another type. -/
theorem C72_getVar (n : Nat) (id : Byte) (t : SType) (s : EvalSt G B) (hC : C.limit = none) :
    (C.extension.get id = none → eval W C (n + 1) (.getVar id t) s = .ok (.none, { s with cost := s.cost + 1 })) ∧
    (∀ c, C.extension.get id = some c → c.tpe = t →
      eval W C (n + 1) (.getVar id t) s = .ok (.some (Value.ofLiteral c.v), { s with cost := s.cost + 1 })) ∧
    (∀ c, C.extension.get id = some c → c.tpe ≠ t → eval W C (n + 1) (.getVar id t) s = .err .tryExtract) := by
  have e : eval W C (n + 1) (.getVar id t) s = (match C.extension.get id with
      | none => pure Value.none
      | some c => if c.tpe.beq t then pure (.some (Value.ofLiteral c.v)) else EvalM.fail .tryExtract : EvalM G B (Value G B))
      { s with cost := s.cost + 1 } := by
    rw [eval_succ_run W C n _ s hC]; rfl
  refine ⟨fun h => ?_, fun c h ht => ?_, fun c h ht => ?_⟩
  · rw [e, h]; rfl
  · rw [e, h]
    dsimp only
    rw [if_pos ((SType.beq_iff _ _).2 ht)]; rfl
  · rw [e, h]
    dsimp only
    rw [if_neg (fun hb => ht ((SType.beq_iff _ _).1 hb))]; rfl

/-- C72: `CONTEXT.selfBoxIndex` is a place of `INPUTS` that holds `SELF`, the first such place. -/
theorem C72_selfBoxIndex (hl : C.inputs.length < 2 ^ 31) (hs : C.selfBox ∈ C.inputs) :
    ∃ i : BitVec 32, Value.pureMethod W C 101 8 .context [] = .ok (.int i) ∧ 0 ≤ i.toInt ∧ C.inputs[i.toNat]? = some C.selfBox ∧
      ∀ j < i.toNat, C.inputs[j]? ≠ some C.selfBox := by
  have hf : ∃ k, C.inputs.findIdx? (fun b => decide (b = C.selfBox)) = some k := by
    cases h : C.inputs.findIdx? (fun b => decide (b = C.selfBox)) with
    | some k => exact ⟨k, rfl⟩
    | none =>
      rw [List.findIdx?_eq_none_iff] at h
      have := h _ hs
      simp at this
  obtain ⟨k, hk⟩ := hf
  have e : Value.pureMethod W C 101 8 .context [] = (match C.inputs.findIdx? (fun b => decide (b = C.selfBox)) with
      | some i => .ok (.int (BitVec.ofNat 32 i))
      | none => .err .notFound) := rfl
  have hk' := hk
  rw [List.findIdx?_eq_some_iff_getElem] at hk'
  obtain ⟨hlt, h1, h2⟩ := hk'
  have hn : (BitVec.ofNat 32 k).toNat = k := by rw [BitVec.toNat_ofNat]; omega
  refine ⟨BitVec.ofNat 32 k, by rw [e, hk], ?_, ?_, fun j hj => ?_⟩
  · rw [BitVec.toInt_eq_toNat_of_lt (by omega)]; omega
  · rw [hn, List.getElem?_eq_getElem hlt]
    simpa using h1
  · rw [hn] at hj
    rw [List.getElem?_eq_getElem (by omega)]
    have := h2 j hj
    simpa using this

/-- The second of two inputs. -/
example (a b : B) (hab : a ≠ b) (hs : C.selfBox = b) (hi : C.inputs = [a, b]) :
    Value.pureMethod W C 101 8 .context [] = .ok (.int 1) := by
  obtain ⟨i, h1, _, h2, _⟩ := C72_selfBoxIndex W C (by rw [hi]; show 2 < 2 ^ 31; omega) (by rw [hi, hs]; simp)
  rw [h1]
  rw [hi, hs] at h2
  have hlt : i.toNat < 2 := by
    by_contra hh
    rw [List.getElem?_eq_none (by simpa using hh)] at h2
    cases h2
  have : i.toNat = 0 ∨ i.toNat = 1 := by omega
  rcases this with h | h
  · rw [h] at h2; simp at h2; exact absurd h2 hab
  · rw [show i = 1 from BitVec.eq_of_toNat_eq h]

/-! ### Byte strings -/

theorem xorBytes_getElem? (a b : Bytes) (h : a.length = b.length) (i : Nat) (x y : Byte) (hx : a[i]? = some x) (hy : b[i]? = some y) :
    (xorBytes a b)[i]? = some (x ^^^ y) := by
  induction a generalizing b i with
  | nil => simp at hx
  | cons c a ih =>
    cases b with
    | nil => simp at h
    | cons d b =>
      cases i with
      | zero => simp only [List.getElem?_cons_zero, Option.some.injEq] at hx hy; subst hx hy; rfl
      | succ i => simpa [xorBytes] using ih b (by simpa using h) i (by simpa using hx) (by simpa using hy)

theorem xorBytes_length (a b : Bytes) : (xorBytes a b).length = a.length := by
  induction a generalizing b with
  | nil => cases b <;> rfl
  | cons c a ih => cases b with
    | nil => rfl
    | cons d b => simp [xorBytes, ih]

/-- C72 (partial): `xor` of two byte strings of one length is their exclusive or, byte by byte, as a node and as a method of `Global`.
What is missing: strings of different lengths, for which see the violation. -/
theorem C72_xor_partial (a b : Bytes) (h : a.length = b.length) :
    ∃ r : Bytes, Value.strictOp W C .xor [.collByte a, .collByte b] = .ok (.collByte r) ∧
      Value.pureMethod W C 106 2 .global [.collByte a, .collByte b] = .ok (.collByte r) ∧ r.length = a.length ∧
      ∀ (i : Nat) x y, a[i]? = some x → b[i]? = some y → r[i]? = some (x ^^^ y) := by
  refine ⟨xorBytes a b, rfl, ?_, xorBytes_length a b, xorBytes_getElem? a b h⟩
  have e : Value.pureMethod W C 106 2 .global [.collByte a, .collByte b] = .ok (.collByte (xorBytes b a)) := rfl
  rw [e]
  congr 2
  apply List.ext_getElem?
  intro i
  by_cases hi : i < a.length
  · rw [xorBytes_getElem? b a h.symm i _ _ (List.getElem?_eq_getElem (by omega)) (List.getElem?_eq_getElem hi),
      xorBytes_getElem? a b h i _ _ (List.getElem?_eq_getElem hi) (List.getElem?_eq_getElem (by omega)), BitVec.xor_comm]
  · rw [List.getElem?_eq_none (by rw [xorBytes_length]; omega), List.getElem?_eq_none (by rw [xorBytes_length]; omega)]

/-- Two strings of three bytes. -/
example : ∃ r : Bytes, Value.strictOp W C .xor [.collByte [1, 2, 3], .collByte [3, 2, 1]] = .ok (.collByte r) ∧ r = [2, 0, 2] := by
  obtain ⟨r, h, _⟩ := C72_xor_partial W C [1, 2, 3] [3, 2, 1] rfl
  exact ⟨_, rfl, rfl⟩

/-- C72 fails for strings of different lengths: the node and the method give different results for the same arguments, and neither
refuses nor truncates both. -/
theorem C72_violation_xor :
    Value.strictOp W C .xor [.collByte [1, 2, 3], .collByte [1]] = .ok (.collByte [0, 2, 3]) ∧
    Value.pureMethod W C 106 2 .global [.collByte [1, 2, 3], .collByte [1]] = .ok (.collByte [0]) := ⟨rfl, rfl⟩

/-! ### Group elements -/

/-- C72: a group element is decoded from its encoding. -/
theorem C72_point (g : G) : ∃ b, Value.pureMethod W C 7 2 (.groupElement g) [] = .ok (.collByte b) ∧ b.length = 33 ∧
    Value.strictOp W C .decodePoint [.collByte b] = .ok (.groupElement g) := by
  refine ⟨putPoint W.E.pc g, rfl, putPoint_length _ _, ?_⟩
  have h := getPoint_putPoint W.E.pc g []
  rw [List.append_nil] at h
  have e : ∀ b, Value.strictOp W C .decodePoint [.collByte b] = (match getPoint W.E.pc b with
      | some x => .ok (.groupElement x.1)
      | none => .err .misc) := fun _ => rfl
  rw [e, h]

/-- C72 fails in the other direction: many byte strings decode to the neutral element, and bytes after the first 33 are ignored. -/
theorem C72_violation_point (rest tail : Bytes) (h : rest.length = 32) :
    Value.strictOp W C .decodePoint [.collByte (0 :: rest ++ tail)] = .ok (.groupElement W.E.pc.one) := by
  have e : ∀ b, Value.strictOp W C .decodePoint [.collByte b] = (match getPoint W.E.pc b with
      | some x => .ok (.groupElement x.1)
      | none => .err .misc) := fun _ => rfl
  rw [e]
  unfold getPoint
  have hr := readExact_append (0#8 :: rest) tail
  rw [List.length_cons, h] at hr
  rw [show (33 : Nat) = 32 + 1 from rfl, show (0 :: rest ++ tail : Bytes) = 0#8 :: rest ++ tail from rfl, Parser.bind_some hr]
  rfl

/-- C72: `g.exp(k)` for exponents below the order of the group, and products of powers, given that the library computes powers of a
group. -/
theorem C72_exp_partial (hexp : ∀ g a b, W.mul (W.exp g a) (W.exp g b) = W.exp g (a + b)) (g : G) (a b : Int) (ha : 0 ≤ a) (hb : 0 ≤ b)
    (h : a + b < W.order) :
    ∃ x y, Value.strictOp W C .exponentiate [.groupElement g, .bigInt a] = .ok x ∧
      Value.strictOp W C .exponentiate [.groupElement g, .bigInt b] = .ok y ∧
      Value.strictOp W C .multiplyGroup [x, y] = Value.strictOp W C .exponentiate [.groupElement g, .bigInt (a + b)] := by
  have e : ∀ k : Int, 0 ≤ k → k < W.order → Value.strictOp W C .exponentiate [.groupElement g, .bigInt k] = .ok (.groupElement (W.exp g k.toNat)) := by
    intro k h0 h1
    show (if 0 ≤ k ∧ k < W.order then _ else _) = _
    rw [if_pos ⟨h0, h1⟩]
  refine ⟨_, _, e a ha (by omega), e b hb (by omega), ?_⟩
  rw [e (a + b) (by omega) h]
  show Res.ok (Value.groupElement (W.mul _ _)) = _
  rw [hexp, Int.toNat_add ha hb]

/-- The group of three elements: `g.exp(1)` times itself. -/
example (C : EvalCtx (Fin 3) Empty) (g : Fin 3) [DecidableEq (Value (Fin 3) Empty)] : ∃ x y,
    Value.strictOp substWorld C .exponentiate [.groupElement g, .bigInt 1] = .ok x ∧
    Value.strictOp substWorld C .exponentiate [.groupElement g, .bigInt 1] = .ok y ∧
    Value.strictOp substWorld C .multiplyGroup [x, y] = Value.strictOp substWorld C .exponentiate [.groupElement g, .bigInt 2] :=
  C72_exp_partial substWorld C (fun g a b => by
    show g * Fin.ofNat 3 a + g * Fin.ofNat 3 b = g * Fin.ofNat 3 (a + b)
    apply Fin.ext
    simp only [Fin.val_add, Fin.val_mul, Fin.ofNat, Nat.mul_mod, Nat.add_mod, Nat.mod_mod]
    have h1 : g.val < 3 := g.isLt
    have h2 := Nat.mod_lt a (by decide : 3 > 0)
    have h3 := Nat.mod_lt b (by decide : 3 > 0)
    generalize a % 3 = x at *
    generalize b % 3 = y at *
    generalize g.val = z at *
    revert x y z
    decide) g 1 1 (by decide) (by decide) (by decide)

/-- C72 fails for other exponents, although they make sense in a group: `g.exp(-1)` and `g.exp(order)` are errors. -/
theorem C72_violation_exp (g : G) (k : Int) (h : k < 0 ∨ W.order ≤ k) :
    Value.strictOp W C .exponentiate [.groupElement g, .bigInt k] = .err .unexpectedValue := by
  show (if 0 ≤ k ∧ k < W.order then _ else _) = _
  rw [if_neg (by omega)]

/-! ### Propositions as scripts -/

/-- C72: `p.propBytes` is the script that is just `p`: header 0, the type code of a proposition, the encoded proposition. -/
theorem C72_propBytes (p : SigmaBoolean G) :
    Value.strictOp W C .sigmaPropBytes [.sigmaProp p] =
      .ok (.collByte ([0x00, 0x08] ++ p.ser W.E.pc)) := by
  rfl

/-- C72: for a public key it is the script of its pay-to-public-key address. -/
theorem C72_propBytes_key (g : G) :
    Value.strictOp W C .sigmaPropBytes [.sigmaProp (.dlog g)] = .ok (.collByte ([0x00, 0x08, 0xcd] ++ putPoint W.E.pc g)) := by
  rfl

/-! ### Authenticated trees -/

theorem testBit_flags (f : Byte) : (f &&& 0x01 != 0) = f.getLsbD 0 ∧ (f &&& 0x02 != 0) = f.getLsbD 1 ∧ (f &&& 0x04 != 0) = f.getLsbD 2 := by
  revert f; decide +kernel

/-- C72: a tree is modified only if its flags allow it. -/
theorem C72_avl_flags (t : AvlTreeData) (args : List (Value G B)) :
    (t.flags.getLsbD 0 = false → Value.pureMethod W C 100 12 (.avlTree t) args = .err .avlTree) ∧
    (t.flags.getLsbD 1 = false → Value.pureMethod W C 100 13 (.avlTree t) args = .err .avlTree) ∧
    (t.flags.getLsbD 2 = false → Value.pureMethod W C 100 14 (.avlTree t) args = .err .avlTree) := by
  obtain ⟨h0, h1, h2⟩ := testBit_flags t.flags
  refine ⟨fun h => ?_, fun h => ?_, fun h => ?_⟩
  · show (if t.flags &&& 0x01 != 0 then _ else _) = _
    rw [h0, h]; rfl
  · show (if t.flags &&& 0x02 != 0 then _ else _) = _
    rw [h1, h]; rfl
  · show (if t.flags &&& 0x04 != 0 then _ else _) = _
    rw [h2, h]; rfl

/-- C72: the operations a script sees as allowed are those of the flags. -/
theorem C72_avl_allowed (t : AvlTreeData) :
    Value.pureMethod W C 100 5 (.avlTree t) [] = .ok (.bool (t.flags.getLsbD 0)) ∧
    Value.pureMethod W C 100 6 (.avlTree t) [] = .ok (.bool (t.flags.getLsbD 1)) ∧
    Value.pureMethod W C 100 7 (.avlTree t) [] = .ok (.bool (t.flags.getLsbD 2)) := by
  obtain ⟨h0, h1, h2⟩ := testBit_flags t.flags
  refine ⟨?_, ?_, ?_⟩
  · show Res.ok (Value.bool (t.flags &&& 0x01 != 0)) = _
    rw [h0]
  · show Res.ok (Value.bool (t.flags &&& 0x02 != 0)) = _
    rw [h1]
  · show Res.ok (Value.bool (t.flags &&& 0x04 != 0)) = _
    rw [h2]

/-- The arguments of `insert` and `update`. -/
def entriesValue (l : List (Bytes × Bytes)) : Value G B := .coll (.tuple [.coll .byte, .coll .byte]) (l.map fun e => .tup [.collByte e.1, .collByte e.2])

/-- The argument of `remove`. -/
def keysValue (l : List Bytes) : Value G B := .coll (.coll .byte) (l.map .collByte)

omit [DecidableEq G] [DecidableEq B] [DecidableEq (Value G B)] in
theorem mapAll_pairs (l : List (Bytes × Bytes)) :
    Res.mapAll Value.asBytesPair (l.map fun e => (Value.tup [.collByte e.1, .collByte e.2] : Value G B)) = .ok l := by
  induction l with
  | nil => rfl
  | cons a l ih => rw [List.map_cons, Res.mapAll, ih]; rfl

omit [DecidableEq G] [DecidableEq B] [DecidableEq (Value G B)] in
theorem mapAll_bytes (l : List Bytes) : Res.mapAll Value.asBytes (l.map (Value.collByte : Bytes → Value G B)) = .ok l := by
  induction l with
  | nil => rfl
  | cons a l ih => rw [List.map_cons, Res.mapAll, ih]; rfl

/-- The tree with the digest the verifier ended with; an error if it refused. -/
def afterOps (t : AvlTreeData) (proof : Bytes) (ops : List AvlOp) : Res (Value G B) :=
  match W.avl t proof ops with
  | some (_, some d) => if 33 ≤ d.length then .ok (.some (.avlTree { t with digest := d.take 33 })) else .err .scorexParsing
  | _ => .err .avlTree

/-- C72: `insert`, `update` and `remove` run the given operations, in the given order, against the given proof. -/
theorem C72_avl_modify (t : AvlTreeData) (l : List (Bytes × Bytes)) (ks : List Bytes) (proof : Bytes) :
    (t.flags.getLsbD 0 = true → Value.pureMethod W C 100 12 (.avlTree t) [entriesValue l, .collByte proof] =
      afterOps W t proof (l.map fun e => .insert e.1 e.2)) ∧
    (t.flags.getLsbD 1 = true → Value.pureMethod W C 100 13 (.avlTree t) [entriesValue l, .collByte proof] =
      afterOps W t proof (l.map fun e => .update e.1 e.2)) ∧
    (t.flags.getLsbD 2 = true → Value.pureMethod W C 100 14 (.avlTree t) [keysValue ks, .collByte proof] =
      afterOps W t proof (ks.map .remove)) := by
  obtain ⟨h0, h1, h2⟩ := testBit_flags t.flags
  refine ⟨fun h => ?_, fun h => ?_, fun h => ?_⟩
  · have e : Value.pureMethod W C 100 12 (.avlTree t) [entriesValue l, .collByte proof] = if t.flags &&& 0x01 != 0 then
        (Res.mapAll Value.asBytesPair (l.map fun e => (Value.tup [.collByte e.1, .collByte e.2] : Value G B)) >>= fun entries =>
          Value.avlModify W t proof (entries.map fun e => .insert e.1 e.2)) else .err .avlTree := rfl
    rw [e, h0, h, if_pos rfl, mapAll_pairs]; rfl
  · have e : Value.pureMethod W C 100 13 (.avlTree t) [entriesValue l, .collByte proof] = if t.flags &&& 0x02 != 0 then
        (Res.mapAll Value.asBytesPair (l.map fun e => (Value.tup [.collByte e.1, .collByte e.2] : Value G B)) >>= fun entries =>
          Value.avlModify W t proof (entries.map fun e => .update e.1 e.2)) else .err .avlTree := rfl
    rw [e, h1, h, if_pos rfl, mapAll_pairs]; rfl
  · have e : Value.pureMethod W C 100 14 (.avlTree t) [keysValue ks, .collByte proof] = if t.flags &&& 0x04 != 0 then
        (Res.mapAll Value.asBytes (ks.map (Value.collByte : Bytes → Value G B)) >>= fun keys =>
          Value.avlModify W t proof (keys.map .remove)) else .err .avlTree := rfl
    rw [e, h2, h, if_pos rfl, mapAll_bytes]; rfl

/-- C72: `get` and `contains` are one lookup against the given proof. -/
theorem C72_avl_lookup (t : AvlTreeData) (key proof : Bytes) (r : Option Bytes) (rest : List (Option Bytes)) (d : Option Bytes)
    (h : W.avl t proof [.lookup key] = some (r :: rest, d)) :
    Value.pureMethod W C 100 10 (.avlTree t) [.collByte key, .collByte proof] = .ok (r.elim .none fun v => .some (.collByte v)) ∧
    Value.pureMethod W C 100 9 (.avlTree t) [.collByte key, .collByte proof] = .ok (.bool r.isSome) := by
  have e : Value.avlLookup W t key proof = .ok r := by
    unfold Value.avlLookup
    rw [h]
  constructor
  · show (Value.avlLookup W t key proof >>= fun r => pure (Value.ofOption (r.map Value.collByte))) = _
    rw [e]; cases r <;> rfl
  · show (Value.avlLookup W t key proof >>= fun r => pure (Value.bool r.isSome)) = _
    rw [e]; rfl

/-- C72: setting the flags keeps the three bits that have a meaning, and everything else. -/
theorem C72_avl_set_flags (t : AvlTreeData) (f : Byte) :
    Value.pureMethod W C 100 8 (.avlTree t) [.byte f] = .ok (.avlTree { t with flags := f &&& 0x07 }) ∧
    ∀ d : Bytes, (d.length = 33 → Value.pureMethod W C 100 15 (.avlTree t) [.collByte d] = .ok (.avlTree { t with digest := d })) ∧
      (d.length ≠ 33 → Value.pureMethod W C 100 15 (.avlTree t) [.collByte d] = .err .avlTree) := by
  have h : ∀ f : Byte, avlFlagsParse f = f &&& 0x07 := by decide +kernel
  have e : ∀ d : Bytes, Value.pureMethod W C 100 15 (.avlTree t) [.collByte d] =
    if d.length = 33 then .ok (.avlTree { t with digest := d }) else .err .avlTree := fun _ => rfl
  refine ⟨?_, fun d => ⟨fun hd => ?_, fun hd => ?_⟩⟩
  · show Res.ok (Value.avlTree { t with flags := avlFlagsParse f }) = _
    rw [h]
  · rw [e, if_pos hd]
  · rw [e, if_neg hd]

/-- C72: `LastBlockUtxoRootHash` is a tree with the state root of the newest header and all operations allowed. -/
theorem C72_last_root (h : Header G) (l : List (Header G)) (hC : C.headers = h :: l) :
    ∃ t : AvlTreeData, Value.pureMethod W C 101 9 .context [] = .ok (.avlTree t) ∧ t.digest = h.stateRoot ∧
      t.flags.getLsbD 0 = true ∧ t.flags.getLsbD 1 = true ∧ t.flags.getLsbD 2 = true ∧ t.keyLength = 32 ∧ t.valueLength = none := by
  refine ⟨{ digest := h.stateRoot, flags := avlFlagsNew true true true, keyLength := 32, valueLength := none }, ?_, rfl,
    (by decide : (avlFlagsNew true true true).getLsbD 0 = true), (by decide : (avlFlagsNew true true true).getLsbD 1 = true),
    (by decide : (avlFlagsNew true true true).getLsbD 2 = true), rfl, rfl⟩
  show (match C.headers with
    | h :: _ => Res.ok (Value.avlTree { digest := h.stateRoot, flags := avlFlagsNew true true true, keyLength := 32, valueLength := none })
    | [] => .panic) = _
  rw [hC]

/-! ### Code from registers and variables -/

/-- C72: `executeFromVar[T](id)` evaluates the code found in a variable that is a collection of bytes, provided it parses and has type
`T`. -/
theorem C72_deserialize (n : Nat) (id : Byte) (t : SType) (s : EvalSt G B) (hC : C.limit = none) (b : Bytes) (e : Expr G B) (st : Expr.TStore)
    (rest : Bytes) (hv : C.extension.get id = some ⟨.coll .byte, .collByte b⟩)
    (hp : Expr.parse W.E { consts := [], subst := false, methods := W.M } [] b = some ((e, st), rest)) (ht : e.tpe = t) :
    eval W C (n + 1) (.deserCtx t id) s = eval W C n e { s with cost := s.cost + 1 } := by
  rw [eval_succ_run W C n _ s hC]
  have h1 : step W C (eval W C n) (.deserCtx t id) = (EvalM.lift (contextExpr W C t id) >>= fun e => eval W C n e) := rfl
  have h2 : contextExpr W C t id = .ok e := by
    unfold contextExpr deserialize
    rw [hv]
    show (Res.ok b >>= fun b => _) = _
    rw [Res.bind_ok, hp]
    dsimp only
    rw [if_pos ((SType.beq_iff _ _).2 ht)]
  rw [h1, h2]
  rfl

/-- C72: it is an error if there is no such variable, if the variable is not a collection of bytes, if it is not code, or if the code has
another type. -/
theorem C72_deserialize_refused (n : Nat) (id : Byte) (t : SType) (s : EvalSt G B) (hC : C.limit = none)
    (h : C.extension.get id = none ∨ ∃ c, C.extension.get id = some c ∧ (c.tpe ≠ .coll .byte ∨
      ∃ b, c.v = .collByte b ∧ (Expr.parse W.E { consts := [], subst := false, methods := W.M } [] b = none ∨
        ∃ x, Expr.parse W.E { consts := [], subst := false, methods := W.M } [] b = some x ∧ x.1.1.tpe ≠ t))) :
    ∃ err, eval W C (n + 1) (.deserCtx t id) s = .err err := by
  rw [eval_succ_run W C n _ s hC]
  have h1 : step W C (eval W C n) (.deserCtx t id) = (EvalM.lift (contextExpr W C t id) >>= fun e => eval W C n e) := rfl
  have h2 : ∃ err, contextExpr W C t id = .err err := by
    unfold contextExpr deserialize
    rcases h with h | ⟨c, h, hc⟩
    · rw [h]; exact ⟨_, rfl⟩
    · rw [h]
      dsimp only
      split
      · rename_i hb
        rcases hc with hc | ⟨b, hv, hc⟩
        · exact absurd ((SType.beq_iff _ _).1 hb) hc
        · rw [hv]
          show ∃ err, (Res.ok b >>= fun b => _) = Res.err err
          rw [Res.bind_ok]
          rcases hc with hc | ⟨x, hc, hx⟩
          · rw [hc]; exact ⟨_, rfl⟩
          · rw [hc]
            dsimp only
            rw [if_neg (fun hb => hx ((SType.beq_iff _ _).1 hb))]
            exact ⟨_, rfl⟩
      · exact ⟨_, rfl⟩
  obtain ⟨err, h2⟩ := h2
  rw [h1, h2]
  exact ⟨err, rfl⟩

end Verif
