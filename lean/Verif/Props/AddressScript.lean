import Verif.Proofs.Printer
import Verif.Props.Address
import Verif.Props.Scope

set_option linter.unusedVariables false
set_option linter.unusedSimpArgs false

/-! # C61: the scripts of addresses -/

namespace Verif
open Verif.Address Verif.Spec
variable {G B T : Type} [DecidableEq G]

/-! ## Public key addresses -/

/-- C61: the script of a public key address has the bytes `00 08 CD` and the key; they are read back as that script, and the
script is recognised as that address. -/
theorem C61_p2pk (E : Sers G B T) (M : Byte → Byte → Option FuncSig) (g : G) :
    ∃ t, script E M (.p2pk g) = .ok t ∧ t.ser E = .ok ([0x00, 0x08, 0xCD] ++ putPoint E.pc g) ∧
      ETree.parseBytes E M ([0x00, 0x08, 0xCD] ++ putPoint E.pc g) = some t ∧ recreate E M t = .ok (.p2pk g) := by
  refine ⟨.parsed (TreeHeader.v0 false) [] (.const { tpe := .sigmaProp, v := .sigmaProp (.dlog g) }), rfl, rfl, ?_, rfl⟩
  have hc : ∀ s, Expr.parse E { consts := [], subst := false, methods := M } ([] : Expr.TStore) (0x08 :: s) =
      (Constant.parse E.utf8 E.pc E.bc >>= fun c => (pure (Expr.const c, []) : Parser (Expr G B × Expr.TStore))) (0x08 :: s) :=
    fun s => rfl
  obtain ⟨bs, h1, h2⟩ := ETree.constant_rto E (bwf := fun _ => False) (fun _ h => h.elim)
    ({ tpe := .sigmaProp, v := .sigmaProp (.dlog g) } : Constant G B) (by
      refine ⟨?_, ?_, ?_⟩ <;> simp [WfType, NoFunc, WellTyped, SigmaBoolean.Bounded])
  cases h1
  have h3 := h2 []
  rw [List.append_nil] at h3
  have hb : ETree.parseBody E M (TreeHeader.v0 false) [] (0x08 :: 0xCD :: putPoint E.pc g) =
      some ((.parsed (TreeHeader.v0 false) [] (.const { tpe := .sigmaProp, v := .sigmaProp (.dlog g) }), []), []) := by
    unfold ETree.parseBody
    rw [if_neg (by decide), Parser.bind_some (a := ([] : List (Constant G B))) (s' := 0x08 :: 0xCD :: putPoint E.pc g) (by rfl),
      Parser.bind_some (a := (Expr.const { tpe := .sigmaProp, v := .sigmaProp (.dlog g) }, [])) (s' := [])]
    · rfl
    · rw [hc]
      exact Parser.bind_some h3
  show (match ETree.parseBody E M (TreeHeader.v0 false) [] (0x08 :: 0xCD :: putPoint E.pc g) with
      | some x => if x.2 = [] then some x.1.1 else some (ETree.unparsed ([0x00, 0x08, 0xCD] ++ putPoint E.pc g))
      | none => some (ETree.unparsed ([0x00, 0x08, 0xCD] ++ putPoint E.pc g))) = _
  rw [hb]
  rfl

/-! ## Pay-to-script addresses -/

/-- C61: the pay-to-script address made of a tree holds exactly the bytes of the tree. -/
theorem C61_p2s_bytes (E : Sers G B T) (M : Byte → Byte → Option FuncSig) (t : ETree G B) (b : Bytes)
    (h : recreate E M t = .ok (.p2s b)) : t.ser E = .ok b := by
  have key : asP2s E t = .ok (.p2s b) → t.ser E = .ok b := by
    intro h
    unfold asP2s at h
    obtain ⟨x, h1, h2⟩ := Outcome.bind_eq_ok.1 h
    cases h2
    exact h1
  unfold recreate at h
  split at h
  · split at h
    · split at h
      · cases h
      · exact key h
    · split at h
      · split at h <;> cases h
      · exact key h
  · exact key h
  · cases h

/-- C61 (partial): the script of the pay-to-script address made of a tree is that tree.  Missing: trees which are taken for
another kind of address (see below), and trees that cannot be written and read back (see C43). -/
theorem C61_p2s_partial (E : Sers G B T) {bwf : B → Prop} (hbox : BoxRoundTrips E.bc bwf) (hb : NonExp E.bc.parse)
    (M : Byte → Byte → Option FuncSig) (t : ETree G B) (hg : GoodTree E bwf M t) (b : Bytes)
    (h : recreate E M t = .ok (.p2s b)) : script E M (.p2s b) = .ok t := by
  have hs := C61_p2s_bytes E M t b h
  show (match ETree.parseBytes E M b with
    | some t => Outcome.ok t
    | none => .err) = _
  rw [C43_bytes_roundtrip E hbox hb M t hg b hs]

example : GoodTree toySers (fun _ => True) noMethods treeExample ∧
    ∃ b, recreate toySers noMethods treeExample = .ok (.p2s b) :=
  ⟨treeExample_good, _, by with_unfolding_all rfl⟩

/-- C61: a tree that could not be parsed is a pay-to-script address of its bytes. -/
theorem C61_unparsed (E : Sers G B T) (M : Byte → Byte → Option FuncSig) (b : Bytes) :
    recreate E M (.unparsed b : ETree G B) = .ok (.p2s b) := rfl

/-! ## Pay-to-script-hash addresses -/

/-- C61: a tree taken for a pay-to-script-hash address has the proposition that such an address stands for: the first 24 bytes of a
hash are the hash of the address, and the script in context variable 1 holds.  What is hashed is not looked at. -/
theorem C61_p2sh_means (E : Sers G B T) (M : Byte → Byte → Option FuncSig) (t : ETree G B) (hash : Hash24)
    (h : recreate E M t = .ok (.p2sh hash)) : ∃ x ct, t.proposition E M = .ok
      (.sigma true [.op .boolToSigmaProp [.bin .eq (.op .slice [.op .calcBlake2b256 [x], .const ⟨.int, .int 0⟩,
        .const ⟨.int, .int 24⟩]) (.const ⟨ct, .collByte hash.1⟩)], .deserCtx .sigmaProp 1]) := by
  have hp : ∀ (e : Expr G B) (b : Bytes), p2shPattern e = some b → ∃ x ct, e =
      .sigma true [.op .boolToSigmaProp [.bin .eq (.op .slice [.op .calcBlake2b256 [x], .const ⟨.int, .int 0⟩,
        .const ⟨.int, .int 24⟩]) (.const ⟨ct, .collByte b⟩)], .deserCtx .sigmaProp 1] := by
    intro e b h
    unfold p2shPattern at h
    split at h
    · rename_i x f u c i
      split at h
      · rename_i hi
        split at h
        · rename_i bytes a b' h1 h2 h3 h4 h5
          split at h
          · rename_i hab
            obtain ⟨ft, fv⟩ := f
            obtain ⟨ut, uv⟩ := u
            obtain ⟨ct, cv⟩ := c
            cases h
            simp only at h1 h2 h3 h4 h5
            rw [hi, h1, h2, h3, h4, h5, hab.1, hab.2]
            exact ⟨x, ct, rfl⟩
          · cases h
        · cases h
      · cases h
    · cases h
  have has : asP2s E t ≠ .ok (.p2sh hash) := by
    intro h
    unfold asP2s at h
    obtain ⟨x, h1, h2⟩ := Outcome.bind_eq_ok.1 h
    cases h2
  unfold recreate at h
  split at h
  · rename_i e he
    split at h
    · split at h
      · cases h
      · exact absurd h has
    · split at h
      · rename_i b hb
        split at h
        · rename_i hl
          simp only [Outcome.ok.injEq, Address.p2sh.injEq] at h
          obtain ⟨x, ct, hx⟩ := hp _ b hb
          refine ⟨x, ct, ?_⟩
          rw [he, hx, ← h]
        · cases h
      · exact absurd h has
  · exact absurd h has
  · cases h

/-- The tree of an address meets the hypothesis (`C61_p2sh_recreate`). -/
example (hash : Hash24) : ∃ t : ETree (Fin 3) Empty, recreate toySers noMethods t = .ok (.p2sh hash) := by
  refine ⟨.parsed (TreeHeader.v0 false) [] (p2shExpr hash.1), ?_⟩
  show (if h : hash.1.length = 24 then Outcome.ok (Address.p2sh ⟨hash.1, h⟩) else .err) = _
  rw [dif_pos hash.2]

/-- C61: the script of a pay-to-script-hash address is recognised as that address. -/
theorem C61_p2sh_recreate (E : Sers G B T) (M : Byte → Byte → Option FuncSig) (hash : Hash24) :
    ∃ t, script E M (.p2sh hash : Address G) = .ok t ∧ recreate E M (t : ETree G B) = .ok (.p2sh hash) := by
  refine ⟨.parsed (TreeHeader.v0 false) [] (p2shExpr hash.1), rfl, ?_⟩
  show (if h : hash.1.length = 24 then Outcome.ok (Address.p2sh ⟨hash.1, h⟩) else .err) = _
  rw [dif_pos hash.2]

/-- C61 fails for pay-to-script-hash addresses.  The script hashes the context variable without taking it out of its `Option`
(`address.rs:217-227`), so its bytes cannot be read back: a box with that script cannot be parsed (whatever follows), nor can the
bytes on their own. -/
theorem C61_violation_p2sh_bytes (E : Sers G B T) (M : Byte → Byte → Option FuncSig) (hash : Hash24) :
    ∃ t b, script E M (.p2sh hash : Address G) = .ok t ∧ (t : ETree G B).ser E = .ok b ∧
      (∀ rest, ETree.parse E M (b ++ rest) = none) ∧ ETree.parseBytes E M b = some (.unparsed b) := by
  have hbody : ∀ rest, ETree.parseBody E M (TreeHeader.v0 false) []
      (234#8 :: 2#8 :: 209#8 :: 147#8 :: 180#8 :: 203#8 :: 227#8 :: 1#8 :: 14#8 :: rest) = none := fun rest => by
    with_unfolding_all rfl
  refine ⟨.parsed (TreeHeader.v0 false) [] (p2shExpr hash.1),
    0#8 :: 234#8 :: 2#8 :: 209#8 :: 147#8 :: 180#8 :: 203#8 :: 227#8 :: 1#8 :: 14#8 :: 4#8 :: 0#8 :: 4#8 :: 48#8 :: 14#8 :: 24#8 ::
      (hash.1 ++ [212#8, 8#8, 1#8]), rfl, ?_, ?_, ?_⟩
  · obtain ⟨l, hl⟩ := hash
    have hc : Constant.ser E.pc E.bc ({ tpe := SType.collByte, v := .collByte l } : Constant G B) = .ok (14#8 :: 24#8 :: l) := by
      simp only [Constant.ser, Literal.ser, hl]
      with_unfolding_all rfl
    have h0 : Constant.ser E.pc E.bc ({ tpe := .int, v := .int 0 } : Constant G B) = .ok [4#8, 0#8] := by with_unfolding_all rfl
    have h1 : Constant.ser E.pc E.bc ({ tpe := .int, v := .int 24 } : Constant G B) = .ok [4#8, 48#8] := by with_unfolding_all rfl
    have he : Expr.ser E (p2shExpr l) none = .ok (234#8 :: 2#8 :: 209#8 :: 147#8 :: 180#8 :: 203#8 :: 227#8 :: 1#8 :: 14#8 ::
        4#8 :: 0#8 :: 4#8 :: 48#8 :: 14#8 :: 24#8 :: (l ++ [212#8, 8#8, 1#8]), none) := by
      simp only [p2shExpr, Expr.ser, Expr.serAll, Expr.boolConst?, intExpr, hc, h0, h1, Outcome.bind_ok, Outcome.pure_eq,
        show Expr.putType SType.collByte = .ok [14#8] from by with_unfolding_all rfl,
        show Expr.putType SType.sigmaProp = .ok [8#8] from by with_unfolding_all rfl]
      rw [show BitVec.ofNat 32 [Expr.op SOp.boolToSigmaProp [Expr.bin BinK.eq (Expr.op SOp.slice
          [Expr.op SOp.calcBlake2b256 [Expr.getVar 1 SType.collByte], Expr.const { tpe := SType.int, v := Literal.int 0 },
            Expr.const { tpe := SType.int, v := Literal.int 24 }])
          (Expr.const { tpe := SType.collByte, v := Literal.collByte l })], (Expr.deserCtx SType.sigmaProp 1 : Expr G B)].length =
          2#32 from rfl, show putU32 2#32 = [2#8] by with_unfolding_all rfl]
      simp [Kind.code, SOp.code, BinK.code, putU8]
    show (Outcome.bind (Outcome.bind (Outcome.ok []) fun cs => Outcome.bind (Expr.ser E (p2shExpr l) none) fun e =>
      Outcome.ok (cs ++ e.1)) fun body => Outcome.ok (0#8 :: ([] ++ body))) = _
    rw [he]
    rfl
  · intro rest
    have := hbody (4#8 :: 0#8 :: 4#8 :: 48#8 :: 14#8 :: 24#8 :: (hash.1 ++ [212#8, 8#8, 1#8]) ++ rest)
    unfold ETree.parse
    rw [Parser.bind_none]
    unfold ETree.parseIn
    rw [Parser.bind_some (s' := 234#8 :: 2#8 :: 209#8 :: 147#8 :: 180#8 :: 203#8 :: 227#8 :: 1#8 :: 14#8 :: 4#8 :: 0#8 :: 4#8 ::
      48#8 :: 14#8 :: 24#8 :: (hash.1 ++ [212#8, 8#8, 1#8]) ++ rest) (a := 0#8) rfl]
    exact this
  · have := hbody (4#8 :: 0#8 :: 4#8 :: 48#8 :: 14#8 :: 24#8 :: (hash.1 ++ [212#8, 8#8, 1#8]))
    unfold ETree.parseBytes
    rw [Parser.bind_some (s' := 234#8 :: 2#8 :: 209#8 :: 147#8 :: 180#8 :: 203#8 :: 227#8 :: 1#8 :: 14#8 :: 4#8 :: 0#8 :: 4#8 ::
      48#8 :: 14#8 :: 24#8 :: (hash.1 ++ [212#8, 8#8, 1#8])) (a := 0#8) rfl]
    rw [show TreeHeader.new 0#8 = some (TreeHeader.v0 false) from rfl]
    simp only [Parser.ofOption, Parser.pure_run]
    rw [if_neg (by decide), this]

theorem p2shExpr_shown {hash : Bytes} : Shown NodeOk (p2shExpr hash : Expr G B) := by
  unfold p2shExpr intExpr
  repeat' first
    | exact trivial
    | (intro h; exact absurd h (by decide))
    | refine Shown.mk ?_ ?_
    | exact shown_nil
    | refine shown_cons ?_ ?_
    | constructor

/-- C61 fails for pay-to-script-hash addresses: not even the tree as built can be spent.  Its evaluation ends in an error whatever
the context, variables and state; no proposition comes out of it. -/
theorem C61_violation_p2sh_unspendable [DecidableEq B] [DecidableEq (Value G B)] (W : World G B T) (C : EvalCtx G B) (hash : Bytes)
    (n : Nat) (env : FMap (BitVec 32) (Value G B)) :
    ∃ e, reduceToCrypto W C (n + 6) (p2shExpr hash) env = .err e := by
  have h : ∀ s : EvalSt G B, ∃ e, eval W { C with limit := none } (n + 6) (p2shExpr hash) s = .err e := by
    intro s
    have hl : { C with limit := none : EvalCtx G B }.limit = none := rfl
    have first : ∀ (m : Nat) (x : Expr G B) (l : List (Expr G B)),
        (∀ s, ∃ e, eval W { C with limit := none } m x s = .err e) →
        ∀ s, ∃ e, evalAll (eval W { C with limit := none } m) (x :: l) s = .err e := by
      intro m x l h s
      obtain ⟨e, he⟩ := h s
      exact ⟨e, EvalM.bind_err he⟩
    have strict : ∀ (m : Nat) (o : SOp) (ho : o.special = false) (x : Expr G B) (l : List (Expr G B)),
        (∀ s, ∃ e, eval W { C with limit := none } m x s = .err e) →
        ∀ s, ∃ e, eval W { C with limit := none } (m + 1) (.op o (x :: l)) s = .err e := by
      intro m o ho x l h s
      obtain ⟨e, he⟩ := first m x l h { s with cost := s.cost + 1 }
      refine ⟨e, ?_⟩
      rw [eval_succ_run _ _ _ _ _ hl]
      show evalOp W _ _ o _ _ = _
      rw [evalOp_strict _ _ _ _ ho, EvalM.bind_err he]
    have hvar : ∀ s, ∃ e, eval W { C with limit := none } (n + 2) (.op .calcBlake2b256 [.getVar 1 SType.collByte]) s = .err e := by
      intro s
      rw [eval_succ_run _ _ _ _ _ hl]
      show ∃ e, evalOp W _ _ SOp.calcBlake2b256 _ _ = _
      rw [evalOp_strict _ _ _ _ rfl]
      cases hv : C.extension.get (1 : Byte) with
      | none =>
        refine ⟨.unexpectedValue, ?_⟩
        rw [EvalM.bind_ok (a := [.none]) (s' := { s with cost := s.cost + 1 + 1 })]
        · rfl
        · unfold evalAll
          rw [EvalM.bind_ok (a := .none) (s' := { s with cost := s.cost + 1 + 1 })]
          · rfl
          · rw [eval_succ_run _ _ _ _ _ hl]
            simp only [step]
            rw [hv]
            rfl
      | some c =>
        cases hb : c.tpe.beq SType.collByte with
        | true =>
          refine ⟨.unexpectedValue, ?_⟩
          rw [EvalM.bind_ok (a := [.some (Value.ofLiteral c.v)]) (s' := { s with cost := s.cost + 1 + 1 })]
          · rfl
          · unfold evalAll
            rw [EvalM.bind_ok (a := .some (Value.ofLiteral c.v)) (s' := { s with cost := s.cost + 1 + 1 })]
            · rfl
            · rw [eval_succ_run _ _ _ _ _ hl]
              simp only [step]
              rw [hv]
              simp only [hb, if_true]
              rfl
        | false =>
          refine ⟨.tryExtract, ?_⟩
          rw [EvalM.bind_err (e := .tryExtract)]
          unfold evalAll
          rw [EvalM.bind_err (e := .tryExtract)]
          rw [eval_succ_run _ _ _ _ _ hl]
          simp only [step]
          rw [hv]
          simp only [hb]
          rfl
    have hbin : ∀ s, ∃ e, eval W { C with limit := none } (n + 4) (.bin .eq
        (.op .slice [.op .calcBlake2b256 [.getVar 1 SType.collByte], intExpr 0, intExpr 24])
        (.const { tpe := SType.collByte, v := .collByte hash })) s = .err e := by
      intro s
      obtain ⟨e, he⟩ := strict (n + 2) .slice rfl _ [intExpr 0, intExpr 24] hvar { s with cost := s.cost + 1 + 1 }
      refine ⟨e, ?_⟩
      rw [eval_succ_run _ _ _ _ _ hl]
      simp only [step]
      unfold evalBin
      rw [EvalM.bind_ok (EvalM.addCost_none _)]
      exact EvalM.bind_err he
    obtain ⟨e, he⟩ := first (n + 5) _ [.deserCtx .sigmaProp 1] (strict (n + 4) .boolToSigmaProp rfl _ [] hbin)
      { s with cost := s.cost + 1 }
    refine ⟨e, ?_⟩
    rw [eval_succ_run _ _ _ _ _ hl]
    exact EvalM.bind_err he
  obtain ⟨e, h⟩ := h { env := env, cost := 0 }
  refine ⟨e, ?_⟩
  have h1 : reduceOnce W C (n + 6) (p2shExpr hash) env = .err e := by unfold reduceOnce; rw [h]
  have h2 : (p2shExpr hash : Expr G B).prettyPrint W.mode = .ok (p2shExpr hash) := by
    have hn : (0 : BitVec 64).toNat = 0 := rfl
    obtain ⟨j, hj, _⟩ := print_ok W.mode (p2shExpr hash : Expr G B) p2shExpr_shown 0 (by simp [p2shExpr, nodes, nodesAll, intExpr])
    unfold Expr.prettyPrint
    rw [bind_ok' hj]
    rfl
  unfold reduceToCrypto reduceAgain
  simp only [h1, h2]

/-- What `recreate_from_ergo_tree` takes for the script of a pay-to-script-hash address: anything may stand in the place of the
hashed expression. -/
def p2shLike (x : Expr G B) (hash : Bytes) : Expr G B :=
  .sigma true [
    .op .boolToSigmaProp [
      .bin .eq (.op .slice [.op .calcBlake2b256 [x], intExpr 0, intExpr 24]) (.const { tpe := SType.collByte, v := .collByte hash })],
    .deserCtx .sigmaProp 1]

/-- C61 fails for recognising pay-to-script-hash scripts: the hashed expression is not looked at, so all the (different) trees which
hash some `x` have one address.  Among them is the script as it should be, with `OptionGet`, whose address therefore has another
script. -/
theorem C61_violation_p2sh_recreate (E : Sers G B T) (M : Byte → Byte → Option FuncSig) (hash : Hash24) (x : Expr G B) :
    recreate E M (.parsed (TreeHeader.v0 false) [] (p2shLike x hash.1)) = .ok (.p2sh hash) ∧
    script E M (.p2sh hash) = .ok (ETree.parsed (TreeHeader.v0 false) [] (p2shLike (.getVar 1 SType.collByte) hash.1) : ETree G B) ∧
    p2shLike (.op .optionGet [.getVar 1 SType.collByte]) hash.1 ≠ p2shLike (.getVar 1 SType.collByte : Expr G B) hash.1 := by
  refine ⟨?_, rfl, fun h => by simp [p2shLike] at h⟩
  show (if h : hash.1.length = 24 then Outcome.ok (Address.p2sh ⟨hash.1, h⟩) else .err) = _
  rw [dif_pos hash.2]

/-- C61 fails for public keys in trees with another header (here version 1 with the size flag): the tree is taken for a public key
address, whose script has other bytes. -/
theorem C61_violation_p2pk_header (E : Sers G B T) (M : Byte → Byte → Option FuncSig) (g : G) :
    let t : ETree G B := .parsed (TreeHeader.v1 false) [] (.const { tpe := .sigmaProp, v := .sigmaProp (.dlog g) })
    recreate E M t = .ok (.p2pk g) ∧
    ∃ t', script E M (.p2pk g) = .ok t' ∧ ∀ b b', t.ser E = .ok b → t'.ser E = .ok b' → b ≠ b' := by
  intro t
  obtain ⟨t', h1, h2, _, _⟩ := C61_p2pk E M g
  refine ⟨rfl, t', h1, fun b b' hb hb' e => ?_⟩
  rw [h2] at hb'
  cases hb'
  rw [e] at hb
  unfold ETree.ser at hb
  obtain ⟨body, _, h3⟩ := Outcome.bind_eq_ok.1 hb
  obtain ⟨n, _, h4⟩ := Outcome.bind_eq_ok.1 h3
  simp only [Outcome.pure_eq, Outcome.ok.injEq] at h4
  have h5 : (9#8 : Byte) = 0x00 := (List.cons.inj h4).1
  exact absurd h5 (by decide)

end Verif
