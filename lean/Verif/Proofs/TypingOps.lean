import Verif.Proofs.TypingValue

set_option linter.unusedSimpArgs false
set_option linter.unusedVariables false

/-!
# Typed operands give typed results: nodes and methods
-/

namespace Verif
open Spec
variable {G B T α β : Type} {L : List (BitVec 32 × SType) → Expr G B → Prop} {D : Decls B}

local notation "H" => HasTy D.box L

theorem hasTy_boxes {l : List B} (h : ∀ b ∈ l, D.box b) : H (Value.coll .box (l.map Value.box)) (.coll .box) := by
  refine .coll _ _ (by simp) fun v hv => ?_
  obtain ⟨b, hb, rfl⟩ := List.mem_map.1 hv
  exact .box b (h b hb)

theorem hasTy_map {γ : Type} {l : List γ} {f : γ → Value G B} {t : SType} (ht : t ≠ .byte) (h : ∀ a, H (f a) t) :
    H (Value.coll t (l.map f)) (.coll t) := by
  refine .coll _ _ ht fun v hv => ?_
  obtain ⟨b, hb, rfl⟩ := List.mem_map.1 hv
  exact h b

theorem hasTy_optBytes (o : Option Bytes) : H (Value.ofOption (o.map Value.collByte) : Value G B) (.option (.coll .byte)) := by
  apply hasTy_ofOption
  intro v hv
  simp only [Option.map_eq_some_iff] at hv
  obtain ⟨a, _, rfl⟩ := hv
  exact .bytes a

theorem rs_avlLookup (W : World G B T) (t : AvlTreeData) (k p : Bytes) : RS (Value.avlLookup W t k p) fun _ => True := by
  unfold Value.avlLookup
  split
  · exact RS.ok' trivial
  · exact RS.err

theorem rs_avlModify (W : World G B T) (t : AvlTreeData) (p : Bytes) (ops : List AvlOp) :
    RS (Value.avlModify W t p ops) (H · (.option .avlTree)) := by
  unfold Value.avlModify
  split
  · split
    · exact RS.ok' (.some _ _ (.avlTree _))
    · exact RS.err
  · exact RS.err

theorem rs_mkAvl (f : BitVec 8) (d : Bytes) (k : BitVec 32) (v : Option (BitVec 32)) :
    RS (Value.mkAvl f d k v : Res (Value G B)) (H · .avlTree) := by
  unfold Value.mkAvl
  split
  · exact RS.ok' (.avlTree _)
  · exact RS.err

theorem rs_substLoop (n : Nat) : ∀ (l : List (BitVec 32 × Constant G B)) (t : ETree G B), RS (Value.substLoop n l t) fun _ => True
  | [], t => RS.ok' trivial
  | (i, c) :: l, t => by
    unfold Value.substLoop
    split
    · exact RS.bind (RS.ofOption fun _ _ => trivial) fun t' _ => rs_substLoop n l t'
    · exact RS.err

theorem rs_substConstants [DecidableEq G] (W : World G B T) {a b c : Value G B} (hb : H b (.coll .int)) :
    RS (Value.substConstants W a b c) (H · (.coll .byte)) := by
  unfold Value.substConstants
  refine RS.bind (rs_asVecOf (by simp) (fun v hv => rs_asInt hv) hb) fun pos _ => ?_
  split
  · refine RS.bind (RS.ofOption fun _ _ => trivial) fun cs _ => ?_
    split
    · exact RS.err
    · split
      · exact RS.bind (RS.ofOption fun _ _ => trivial) fun _ _ => RS.bind (RS.ofOption fun _ _ => trivial) fun _ _ =>
          RS.bind (rs_substLoop _ _ _) fun _ _ => RS.bind (RS.ofOutcome fun _ _ => trivial) fun _ _ => RS.pure (.bytes _)
      · exact RS.err
  · exact RS.err

theorem rs_propBytes [DecidableEq G] (W : World G B T) (p : SigmaBoolean G) : RS (Value.propBytes W p) (H · (.coll .byte)) := by
  unfold Value.propBytes
  exact RS.bind (RS.ofOutcome fun _ _ => trivial) fun _ _ => RS.bind (RS.ofOutcome fun _ _ => trivial) fun _ _ => RS.pure (.bytes _)

theorem rs_atleast (k : BitVec 32) (l : List (SigmaBoolean G)) : RS (Value.atleast k l : Res (Value G B)) (H · .sigmaProp) := by
  unfold Value.atleast
  split
  · exact RS.err
  · split
    · exact RS.err
    · split
      · exact RS.bind (RS.ofOutcome fun _ _ => trivial) fun _ _ => RS.pure (.sigmaProp _)
      · exact RS.err

theorem rs_bytesToLong (b : Bytes) : RS (bytesToLong b) fun _ => True := by
  unfold bytesToLong
  split
  · exact RS.ok' trivial
  · exact RS.err

theorem bigInt256_fits {x y : Int} (h : bigInt256 x = some y) : Fits 256 y := by
  rcases bigInt256_cases x with ⟨c, h1, h2, h3⟩ | ⟨h1, _⟩
  · rw [h1] at h; cases h; exact h3
  · rw [h1] at h; cases h

theorem rs_bytesToBigInt (b : Bytes) : RS (bytesToBigInt b) (Fits 256) := by
  unfold bytesToBigInt
  split
  · exact RS.err
  · exact RS.ofOption fun a ha => bigInt256_fits ha

theorem rs_regOption {W : World G B T} {C : EvalCtx G B} [DecidableEq G] (hW : Honours D W C) {b : B} {r : Byte} {t : SType}
    (hr : D.reg r t) (hb : D.box b) : RS (Value.regOption W.box b r) (H · (.option t)) := by
  unfold Value.regOption
  have h0 : RS (RegId.ofI8 r) fun id => RegId.ofI8 r = .ok id := by
    refine ⟨⟨NO.regId r, fun a h => h⟩, ?_⟩
    unfold RegId.ofI8
    split
    · simp
    · split
      all_goals first
        | simp; done
        | (cases h : NmId.ofI8 r <;> simp [Res.ofOutcome])
  refine RS.bind h0 fun id hid => RS.bind (RS.ofOutcome fun c h => h) fun c hc => RS.pure (hasTy_ofOption fun v hv => ?_)
  cases c with
  | none => cases hv
  | some c => cases hv; exact hasTy_ofLiteral _ _ (hW.reg r t hr b hb id c hid hc)

/-- Values item by item of the types. -/
def HasTys (ok : B → Prop) (L : List (BitVec 32 × SType) → Expr G B → Prop) : List (Value G B) → List SType → Prop :=
  List.Forall₂ (HasTy ok L)

theorem HasTys.nil {ok : B → Prop} {vs : List (Value G B)} (h : HasTys ok L vs []) : vs = [] := by cases h; rfl
theorem HasTys.cons {ok : B → Prop} {vs : List (Value G B)} {t : SType} {ts : List SType} (h : HasTys ok L vs (t :: ts)) :
    ∃ v l, vs = v :: l ∧ HasTy ok L v t ∧ HasTys ok L l ts := by
  cases h with
  | cons h1 h2 => exact ⟨_, _, rfl, h1, h2⟩

theorem rs_strictOp [DecidableEq G] {W : World G B T} {C : EvalCtx G B} (hW : Honours D W C) {o : SOp} {ts : List SType}
    (ho : OpOk o ts) (hs : o.special = false) {vs : List (Value G B)} (h : HasTys D.box L vs ts) :
    RS (Value.strictOp W C o vs) (H · (o.resTpe ts)) := by
  cases ho
  case height => cases h.nil; exact RS.ok' (.int _)
  case inputs => cases h.nil; exact RS.ok' (hasTy_boxes hW.inputs)
  case outputs => cases h.nil; exact RS.ok' (hasTy_boxes hW.outputs)
  case selfBox => cases h.nil; exact RS.ok' (.box _ hW.selfBox)
  case minerPubKey => cases h.nil; exact RS.ok' (.bytes _)
  case groupGenerator => cases h.nil; exact RS.ok' (.groupElement _)
  case global => cases h.nil; exact RS.ok' .global
  case context => cases h.nil; exact RS.ok' .context
  all_goals (obtain ⟨v, l, rfl, hv, h⟩ := h.cons)
  case and => cases h.nil; exact RS.bind (rs_asVecOf (by simp) (fun v hv => rs_asBool hv) hv) fun _ _ => RS.pure (.bool _)
  case or => cases h.nil; exact RS.bind (rs_asVecOf (by simp) (fun v hv => rs_asBool hv) hv) fun _ _ => RS.pure (.bool _)
  case xorOf => cases h.nil; exact RS.bind (rs_asVecOf (by simp) (fun v hv => rs_asBool hv) hv) fun _ _ => RS.pure (.bool _)
  case logicalNot => cases h.nil; exact RS.bind (rs_asBool hv) fun _ _ => RS.pure (.bool _)
  case negation t _ =>
    cases h.nil
    have : SOp.resTpe .negation [t.stype] = t.stype := by cases t <;> rfl
    rw [this]; exact rs_negate hv
  case bitInversion t _ =>
    cases h.nil
    have : SOp.resTpe .bitInversion [t.stype] = t.stype := by cases t <;> rfl
    rw [this]; exact rs_invert hv
  case optionGet t =>
    cases h.nil
    cases hv with
    | none => exact RS.err
    | some v t h => exact RS.ok' h
  case optionIsDefined t =>
    cases h.nil
    cases hv with
    | none => exact RS.ok' (.bool _)
    | some v t h => exact RS.ok' (.bool _)
  case optionGetOrElse t =>
    obtain ⟨w, l, rfl, hw, h⟩ := h.cons
    cases h.nil
    cases hv with
    | none => exact RS.ok' hw
    | some v t h => exact RS.ok' h
  case extractAmount => cases h.nil; cases hv; exact RS.ok' (.long _)
  case extractBytes => cases h.nil; cases hv; exact RS.bind (RS.ofOutcome fun _ _ => trivial) fun _ _ => RS.pure (.bytes _)
  case extractBytesWithNoRef => cases h.nil; cases hv; exact RS.bind (RS.ofOutcome fun _ _ => trivial) fun _ _ => RS.pure (.bytes _)
  case extractScriptBytes => cases h.nil; cases hv; exact RS.bind (RS.ofOutcome fun _ _ => trivial) fun _ _ => RS.pure (.bytes _)
  case extractCreationInfo => cases h.nil; cases hv; exact RS.ok' (hasTy_pair (.int _) (.bytes _))
  case extractId => cases h.nil; cases hv; exact RS.ok' (.bytes _)
  case sizeOf t => cases h.nil; exact RS.bind (rs_asColl hv) fun _ _ => RS.pure (.int _)
  case boolToSigmaProp => cases h.nil; exact RS.bind (rs_asBool hv) fun _ _ => RS.pure (.sigmaProp _)
  case createProveDlog => cases h.nil; cases hv; exact RS.ok' (.sigmaProp _)
  case sigmaPropBytes => cases h.nil; cases hv; exact rs_propBytes W _
  case decodePoint =>
    cases h.nil
    refine RS.bind (rs_asBytes hv) fun b _ => ?_
    split
    · exact RS.ok' (.groupElement _)
    · exact RS.err
  case calcBlake2b256 =>
    cases h.nil
    cases hv with
    | bytes b => exact RS.ok' (.bytes _)
    | coll t i ht _ => exact absurd rfl ht
  case calcSha256 =>
    cases h.nil
    cases hv with
    | bytes b => exact RS.ok' (.bytes _)
    | coll t i ht _ => exact absurd rfl ht
  case byteArrayToLong =>
    cases h.nil; exact RS.bind (rs_asBytes hv) fun _ _ => RS.bind (rs_bytesToLong _) fun _ _ => RS.pure (.long _)
  case byteArrayToBigInt =>
    cases h.nil; exact RS.bind (rs_asBytes hv) fun _ _ => RS.bind (rs_bytesToBigInt _) fun _ h => RS.pure (.bigInt _ h)
  case longToByteArray => cases h.nil; exact RS.bind (rs_asLong hv) fun _ _ => RS.pure (.bytes _)
  all_goals (obtain ⟨w, l, rfl, hw, h⟩ := h.cons)
  case append t =>
    cases h.nil
    refine RS.bind (rs_asColl hv) fun x hx => RS.bind (rs_asColl hw) fun y hy => ?_
    split
    · rw [hx.1]
      refine rs_fromVec fun c hc => ?_
      rcases List.mem_append.1 hc with hc | hc
      · exact hx.2 c hc
      · exact hy.2 c hc
    · exact RS.err
  case xor =>
    cases h.nil
    cases hv with
    | coll t i ht _ => exact absurd rfl ht
    | bytes b =>
      cases hw with
      | coll t i ht _ => exact absurd rfl ht
      | bytes c => exact RS.ok' (.bytes _)
  case atleast =>
    cases h.nil
    exact RS.bind (rs_asColl hw) fun c hc => RS.bind (rs_asInt hv) fun k _ =>
      RS.bind (RS.mapAll (fun v hv => rs_asSigma hv) _ hc.2) fun _ _ => rs_atleast _ _
  case map => cases hs
  case filter => cases hs
  case anyOf => cases hs
  case forAll => cases hs
  case fold => cases hs
  case ifOp => cases hs
  case treeLookup => cases hs
  case createProveDhTuple => cases hs
  case multiplyGroup => cases h.nil; cases hv; cases hw; exact RS.ok' (.groupElement _)
  case exponentiate =>
    cases h.nil; cases hv; cases hw
    show RS (if _ then _ else _) _
    split
    · exact RS.ok' (.groupElement _)
    · exact RS.err
  case slice t =>
    obtain ⟨x, l, rfl, hx, h⟩ := h.cons
    cases h.nil
    refine RS.bind (rs_asColl hv) fun c hc => RS.bind (rs_asInt hw) fun a _ => RS.bind (rs_asInt hx) fun b _ => ?_
    rw [hc.1]
    refine rs_fromVec fun y hy => hc.2 y ?_
    unfold Value.sliceItems at hy
    dsimp only at hy
    generalize usizeOf _ = i at hy
    generalize usizeOf _ = j at hy
    split at hy
    · exact List.mem_of_mem_take (List.mem_of_mem_drop hy)
    · simp at hy
  case substConstants =>
    obtain ⟨x, l, rfl, hx, h⟩ := h.cons
    cases h.nil
    exact rs_substConstants W hw

/-! ## Methods -/

theorem rs_arg0 {e : EvalErr} (he : e ≠ .tryExtract) {v : Value G B} {l : List (Value G B)} : RS (Value.argOf e 0 (v :: l)) (· = v) :=
  RS.ofOption (by simp) he
theorem rs_arg1 {e : EvalErr} (he : e ≠ .tryExtract) {u v : Value G B} {l : List (Value G B)} :
    RS (Value.argOf e 1 (u :: v :: l)) (· = v) := RS.ofOption (by simp) he
theorem rs_arg2 {e : EvalErr} (he : e ≠ .tryExtract) {t u v : Value G B} {l : List (Value G B)} :
    RS (Value.argOf e 2 (t :: u :: v :: l)) (· = v) := RS.ofOption (by simp) he

theorem rs_collIndexOf [DecidableEq (Value G B)] {o a b : Value G B} {t : SType} (ho : H o (.coll t)) (hb : H b .int) :
    RS (Value.collIndexOf o [a, b]) (H · .int) := by
  unfold Value.collIndexOf
  refine RS.bind (rs_asColl ho) fun c hc => RS.bind (rs_arg0 (by decide)) fun _ _ => RS.bind (rs_arg1 (by decide)) fun x hx => ?_
  subst hx
  refine RS.bind (rs_asInt hb) fun i _ => ?_
  split
  · exact RS.ok' (.int _)
  · exact RS.ok' (.int _)

theorem rs_collZip {o a : Value G B} {s t : SType} (ho : H o (.coll s)) (ha : H a (.coll t)) :
    RS (Value.collZip o [a]) (H · (.coll (.tuple [s, t]))) := by
  unfold Value.collZip
  refine RS.bind (rs_asColl ho) fun c hc => RS.bind (rs_arg0 (by decide)) fun x hx => ?_
  subst hx
  refine RS.bind (rs_asColl ha) fun d hd => ?_
  rw [hc.1, hd.1]
  refine rs_fromVec fun v hv => ?_
  obtain ⟨p, hp, rfl⟩ := List.mem_map.1 hv
  exact hasTy_pair (hc.2 _ (List.of_mem_zip hp).1) (hd.2 _ (List.of_mem_zip hp).2)

theorem rs_collIndices {o : Value G B} {t : SType} (ho : H o (.coll t)) : RS (Value.collIndices o) (H · (.coll .int)) := by
  unfold Value.collIndices
  refine RS.bind (rs_asColl ho) fun c hc => ?_
  split
  · refine rs_fromVec fun v hv => ?_
    obtain ⟨p, hp, rfl⟩ := List.mem_map.1 hv
    exact .int _
  · exact RS.err

theorem rs_collPatch {mode : Mode} {o a b c : Value G B} {t : SType} (ho : H o (.coll t)) (ha : H a .int) (hb : H b (.coll t))
    (hc : H c .int) : RS (Value.collPatch mode o [a, b, c]) (H · (.coll t)) := by
  unfold Value.collPatch
  refine RS.bind (rs_asColl ho) fun x hx => RS.bind (rs_arg0 (by decide)) fun a' ea => RS.bind (rs_arg1 (by decide)) fun b' eb =>
    RS.bind (rs_arg2 (by decide)) fun c' ec => ?_
  subst ea eb ec
  refine RS.bind (rs_asInt ha) fun i _ => RS.bind (rs_asInt hc) fun j _ => RS.bind (rs_asColl hb) fun y hy =>
    RS.bind (RS.ofOutcome fun _ _ => trivial) fun k _ => ?_
  rw [hx.1]
  refine rs_fromVec fun v hv => ?_
  simp only [List.mem_append] at hv
  rcases hv with (hv | hv) | hv
  · exact hx.2 v (List.mem_of_mem_take hv)
  · exact hy.2 v hv
  · exact hx.2 v (List.mem_of_mem_drop hv)

theorem rs_collUpdated {o a b : Value G B} {t : SType} (ho : H o (.coll t)) (ha : H a .int) (hb : H b t) :
    RS (Value.collUpdated o [a, b]) (H · (.coll t)) := by
  unfold Value.collUpdated
  refine RS.bind (rs_asColl ho) fun x hx => RS.bind (rs_arg0 (by decide)) fun a' ea => RS.bind (rs_arg1 (by decide)) fun b' eb => ?_
  subst ea eb
  refine RS.bind (rs_asInt ha) fun i _ => ?_
  split
  · rw [hx.1]
    refine rs_fromVec fun v hv => ?_
    rcases List.mem_or_eq_of_mem_set hv with hv | rfl
    · exact hx.2 v hv
    · exact hb
  · exact RS.err

theorem rs_updateLoop {t : SType} : ∀ (u : List (BitVec 32 × Value G B)) (l : List (Value G B)), (∀ p ∈ u, H p.2 t) → (∀ v ∈ l, H v t) →
    RS (Value.updateLoop u l) fun r => ∀ v ∈ r, H v t
  | [], l, hu, hl => RS.ok' hl
  | (i, w) :: u, l, hu, hl => by
    unfold Value.updateLoop
    split
    · refine rs_updateLoop u _ (fun p hp => hu p (List.mem_cons_of_mem _ hp)) fun v hv => ?_
      rcases List.mem_or_eq_of_mem_set hv with hv | rfl
      · exact hl v hv
      · exact hu _ (List.mem_cons_self ..)
    · exact RS.err

theorem rs_collUpdateMany {o a b : Value G B} {t : SType} (ho : H o (.coll t)) (ha : H a (.coll .int)) (hb : H b (.coll t)) :
    RS (Value.collUpdateMany o [a, b]) (H · (.coll t)) := by
  unfold Value.collUpdateMany
  refine RS.bind (rs_asColl ho) fun x hx => RS.bind (rs_arg0 (by decide)) fun a' ea => RS.bind (rs_arg1 (by decide)) fun b' eb => ?_
  subst ea eb
  refine RS.bind (rs_asColl hb) fun y hy => RS.bind (rs_asVecOf (by simp) (fun v hv => rs_asInt hv) ha) fun idx _ => ?_
  split
  · exact RS.err
  · split
    · rw [hx.1]
      exact RS.bind (rs_updateLoop _ _ (fun p hp => hy.2 _ (List.of_mem_zip hp).2) hx.2) fun l hl => rs_fromVec hl
    · exact RS.err

/-- What a specialised signature is. -/
theorem specialize_eq {M : Byte → Byte → Option FuncSig} {t m : Byte} {actual : List SType} {sig : FuncSig}
    (h : Expr.specialize M t m actual = some sig) :
    ∃ raw s, M t m = some raw ∧ SType.withSubsts s raw.dom = actual ∧ SType.withSubst s raw.range = sig.range := by
  unfold Expr.specialize at h
  simp only [Option.bind_eq_bind, Option.bind_eq_some_iff] at h
  obtain ⟨raw, h1, s, h2, h3⟩ := h
  split at h3
  · next hc =>
    simp only [Bool.and_eq_true, decide_eq_true_eq] at hc
    cases h3
    exact ⟨raw, s, h1, (SType.beqList_iff _ (fun c _ => SType.beq_iff c) _).1 hc.2, rfl⟩
  · cases h3

section
variable [DecidableEq G] [DecidableEq B] [DecidableEq (Value G B)] {W : World G B T} {C : EvalCtx G B}

theorem rs_avlMethod {m : Nat} {raw : FuncSig} {s : Subst} (h : avlTreeMethods m = some raw) {o : Value G B} {vs : List (Value G B)}
    (hv : HasTys D.box L (o :: vs) (SType.withSubsts s raw.dom)) :
    RS (Value.avlMethod W m o vs) (H · (SType.withSubst s raw.range)) := by
  unfold avlTreeMethods at h
  split at h
  all_goals first
    | cases h; done
    | (cases h
       simp only [FuncSig.plain, SType.withSubsts, SType.withSubst] at hv ⊢
       obtain ⟨o', l, e, ho, hv⟩ := hv.cons
       cases e
       first
         | (cases hv.nil
            refine RS.bind (rs_asAvl ho) fun t _ => RS.pure ?_
            first
              | exact .bytes _
              | exact .byte _
              | exact .int _
              | exact .bool _
              | (refine hasTy_ofOption fun v hv => ?_
                 simp only [Option.map_eq_some_iff] at hv
                 obtain ⟨a, _, rfl⟩ := hv
                 exact .int a))
         | skip)
  · obtain ⟨a, l, rfl, ha, hv⟩ := hv.cons
    cases hv.nil
    refine RS.bind (rs_asAvl ho) fun t _ => RS.bind (rs_arg0 (by decide)) fun x hx => ?_
    subst hx
    exact RS.bind (rs_asByte ha) fun _ _ => RS.pure (.avlTree _)
  · obtain ⟨a, l, rfl, ha, hv⟩ := hv.cons
    obtain ⟨b, l, rfl, hb, hv⟩ := hv.cons
    cases hv.nil
    refine RS.bind (rs_asAvl ho) fun t _ => RS.bind (rs_arg0 (by decide)) fun x hx => ?_
    subst hx
    refine RS.bind (rs_asBytes ha) fun _ _ => RS.bind (rs_arg1 (by decide)) fun x hx => ?_
    subst hx
    exact RS.bind (rs_asBytes hb) fun _ _ => RS.bind (rs_avlLookup _ _ _ _) fun _ _ => RS.pure (.bool _)
  · obtain ⟨a, l, rfl, ha, hv⟩ := hv.cons
    obtain ⟨b, l, rfl, hb, hv⟩ := hv.cons
    cases hv.nil
    refine RS.bind (rs_asAvl ho) fun t _ => RS.bind (rs_arg0 (by decide)) fun x hx => ?_
    subst hx
    refine RS.bind (rs_asBytes ha) fun _ _ => RS.bind (rs_arg1 (by decide)) fun x hx => ?_
    subst hx
    exact RS.bind (rs_asBytes hb) fun _ _ => RS.bind (rs_avlLookup _ _ _ _) fun _ _ => RS.pure (hasTy_optBytes _)
  · obtain ⟨a, l, rfl, ha, hv⟩ := hv.cons
    obtain ⟨b, l, rfl, hb, hv⟩ := hv.cons
    cases hv.nil
    refine RS.bind (rs_asAvl ho) fun t _ => RS.bind (rs_arg0 (by decide)) fun x hx => ?_
    subst hx
    refine RS.bind (rs_asVecOf (by simp) (fun v hv => rs_asBytes hv) ha) fun _ _ => RS.bind (rs_arg1 (by decide)) fun x hx => ?_
    subst hx
    exact RS.bind (rs_asBytes hb) fun _ _ => RS.bind (RS.ofOption fun _ _ => trivial) fun _ _ =>
      RS.pure (hasTy_map (by simp) fun _ => hasTy_optBytes _)
  · obtain ⟨a, l, rfl, ha, hv⟩ := hv.cons
    obtain ⟨b, l, rfl, hb, hv⟩ := hv.cons
    cases hv.nil
    refine RS.bind (rs_asAvl ho) fun t _ => ?_
    split
    · refine RS.bind (rs_arg0 (by decide)) fun x hx => ?_
      subst hx
      refine RS.bind (rs_asVecOf (by simp) (fun v hv => rs_asBytesPair hv) ha) fun _ _ => RS.bind (rs_arg1 (by decide)) fun x hx => ?_
      subst hx
      exact RS.bind (rs_asBytes hb) fun _ _ => rs_avlModify _ _ _ _
    · exact RS.err
  · obtain ⟨a, l, rfl, ha, hv⟩ := hv.cons
    obtain ⟨b, l, rfl, hb, hv⟩ := hv.cons
    cases hv.nil
    refine RS.bind (rs_asAvl ho) fun t _ => ?_
    split
    · refine RS.bind (rs_arg0 (by decide)) fun x hx => ?_
      subst hx
      refine RS.bind (rs_asVecOf (by simp) (fun v hv => rs_asBytesPair hv) ha) fun _ _ => RS.bind (rs_arg1 (by decide)) fun x hx => ?_
      subst hx
      exact RS.bind (rs_asBytes hb) fun _ _ => rs_avlModify _ _ _ _
    · exact RS.err
  · obtain ⟨a, l, rfl, ha, hv⟩ := hv.cons
    obtain ⟨b, l, rfl, hb, hv⟩ := hv.cons
    cases hv.nil
    refine RS.bind (rs_asAvl ho) fun t _ => ?_
    split
    · refine RS.bind (rs_arg0 (by decide)) fun x hx => ?_
      subst hx
      refine RS.bind (rs_asVecOf (by simp) (fun v hv => rs_asBytes hv) ha) fun _ _ => RS.bind (rs_arg1 (by decide)) fun x hx => ?_
      subst hx
      exact RS.bind (rs_asBytes hb) fun _ _ => rs_avlModify _ _ _ _
    · exact RS.err
  · obtain ⟨a, l, rfl, ha, hv⟩ := hv.cons
    cases hv.nil
    refine RS.bind (rs_asAvl ho) fun t _ => RS.bind (rs_arg0 (by decide)) fun x hx => ?_
    subst hx
    refine RS.bind (rs_asBytes ha) fun _ _ => ?_
    split
    · exact RS.ok' (.avlTree _)
    · exact RS.err

theorem rs_headerMethod {m : Nat} {raw : FuncSig} {s : Subst} (h : headerMethods m = some raw) (hm : m ≠ 5) {o : Value G B}
    {vs : List (Value G B)} (hv : HasTys D.box L (o :: vs) (SType.withSubsts s raw.dom)) :
    RS (Value.headerMethod W m o) (H · (SType.withSubst s raw.range)) := by
  unfold headerMethods at h
  split at h
  all_goals first
    | cases h; done
    | exact absurd rfl hm
    | (cases h
       simp only [FuncSig.plain, SType.withSubsts, SType.withSubst] at hv ⊢
       obtain ⟨o', l, e, ho, hv⟩ := hv.cons
       cases e
       cases hv.nil
       unfold Value.headerMethod
       rw [if_neg (by decide)]
       refine RS.bind (rs_asHeader ho) fun h _ => ?_
       first
         | exact RS.pure (.bytes _)
         | exact RS.pure (.byte _)
         | exact RS.pure (.int _)
         | exact RS.pure (.long _)
         | exact RS.pure (.groupElement _)
         | exact RS.bind (RS.ofOption fun a ha => bigInt256_fits ha) fun _ h => RS.pure (.bigInt _ h))

theorem rs_preHeaderMethod {m : Nat} {raw : FuncSig} {s : Subst} (h : preHeaderMethods m = some raw) {o : Value G B}
    {vs : List (Value G B)} (hv : HasTys D.box L (o :: vs) (SType.withSubsts s raw.dom)) :
    RS (Value.preHeaderMethod m o) (H · (SType.withSubst s raw.range)) := by
  unfold preHeaderMethods at h
  split at h
  all_goals first
    | cases h; done
    | (cases h
       simp only [FuncSig.plain, SType.withSubsts, SType.withSubst] at hv ⊢
       obtain ⟨o', l, e, ho, hv⟩ := hv.cons
       cases e
       cases hv.nil
       unfold Value.preHeaderMethod
       rw [if_neg (by decide)]
       refine RS.bind (rs_asPreHeader ho) fun h _ => ?_
       first
         | exact RS.pure (.bytes _)
         | exact RS.pure (.byte _)
         | exact RS.pure (.int _)
         | exact RS.pure (.long _)
         | exact RS.pure (.groupElement _))

theorem rs_contextMethod (hW : Honours D W C) {m : Nat} {raw : FuncSig} {s : Subst} (h : contextMethods m = some raw) {o : Value G B}
    {vs : List (Value G B)} (hv : HasTys D.box L (o :: vs) (SType.withSubsts s raw.dom)) :
    RS (Value.contextMethod C m o) (H · (SType.withSubst s raw.range)) := by
  unfold contextMethods at h
  split at h
  all_goals first
    | cases h; done
    | (cases h
       simp only [FuncSig.plain, SType.withSubsts, SType.withSubst] at hv ⊢
       obtain ⟨o', l, e, ho, hv⟩ := hv.cons
       cases e
       cases hv.nil
       cases ho
       simp only [Value.contextMethod]
       first
         | exact RS.err
         | exact RS.ok' (hasTy_boxes hW.dataInputs)
         | exact RS.ok' (hasTy_map (by simp) fun _ => .header _)
         | exact RS.ok' (.preHeader _)
         | (split
            · exact RS.ok' (.int _)
            · exact RS.err)
         | (split
            · exact RS.ok' (.avlTree _)
            · exact RS.panic))

theorem rs_pureMethod (hW : Honours D W C) {t m : Byte} {raw : FuncSig} {s : Subst} (h : methodTable t m = some raw)
    (hb : ¬ badMethod t m) (ht : t.toNat ≠ 36) {o : Value G B} {vs : List (Value G B)}
    (hv : HasTys D.box L (o :: vs) (SType.withSubsts s raw.dom)) :
    RS (Value.pureMethod W C t.toNat m.toNat o vs) (H · (SType.withSubst s raw.range)) := by
  unfold methodTable at h
  split at h
  case h_10 => cases h
  case h_3 h1 => exact absurd h1 ht
  case h_5 h1 => rw [h1]; exact rs_avlMethod h hv
  case h_6 h1 => rw [h1]; exact rs_contextMethod hW h hv
  case h_7 h1 =>
    rw [h1]
    refine rs_headerMethod h (fun h5 => hb (.inr (.inl ⟨?_, ?_⟩))) hv
    · exact BitVec.eq_of_toNat_eq (by simpa using h1)
    · exact BitVec.eq_of_toNat_eq (by simpa using h5)
  case h_8 h1 => rw [h1]; exact rs_preHeaderMethod h hv
  case h_1 h1 =>
    rw [h1]
    unfold groupMethods at h
    split at h
    case h_3 => cases h
    all_goals
      next h2 =>
      rw [h2]
      cases h
      simp only [FuncSig.plain, SType.withSubsts, SType.withSubst] at hv ⊢
      obtain ⟨o', l, e, ho, hv⟩ := hv.cons
      cases e
      cases hv.nil
      cases ho
      first
        | exact RS.ok' (.bytes _)
        | exact RS.ok' (.groupElement _)
  case h_4 h1 =>
    rw [h1]
    unfold boxMethods at h
    split at h
    case h_4 => cases h
    case h_2 h2 =>
      exact absurd (.inr (.inr ⟨BitVec.eq_of_toNat_eq (by simpa using h1), BitVec.eq_of_toNat_eq (by simpa using h2)⟩)) hb
    all_goals
      next h2 =>
      rw [h2]
      cases h
      simp only [FuncSig.plain, SType.withSubsts, SType.withSubst] at hv ⊢
      obtain ⟨o', l, e, ho, hv⟩ := hv.cons
      cases e
      cases hv.nil
      refine RS.bind (rs_asBox ho) fun b _ => RS.pure ?_
      first
        | exact .long _
        | exact hasTy_map (by simp) fun _ => hasTy_pair (.bytes _) (.long _)
  case h_9 h1 =>
    rw [h1]
    unfold globalMethods at h
    split at h
    case h_3 => cases h
    case h_1 h2 =>
      rw [h2]
      cases h
      simp only [FuncSig.plain, SType.withSubsts, SType.withSubst] at hv ⊢
      obtain ⟨o', l, e, ho, hv⟩ := hv.cons
      cases e
      cases ho
      exact RS.ok' (.groupElement _)
    case h_2 h2 =>
      rw [h2]
      cases h
      simp only [FuncSig.plain, SType.withSubsts, SType.withSubst] at hv ⊢
      obtain ⟨o', l, e, ho, hv⟩ := hv.cons
      cases e
      obtain ⟨a, l, rfl, ha, hv⟩ := hv.cons
      obtain ⟨b, l, rfl, hb, hv⟩ := hv.cons
      cases ho
      refine RS.bind (rs_arg0 (by decide)) fun x hx => RS.bind (rs_arg1 (by decide)) fun y hy => ?_
      subst hx hy
      cases ha with
      | coll t i ht _ => exact absurd rfl ht
      | bytes a =>
        cases hb with
        | coll t i ht _ => exact absurd rfl ht
        | bytes b => exact RS.ok' (.bytes _)
  case h_2 h1 =>
    rw [h1]
    unfold collMethods at h
    split at h
    case h_2 h2 =>
      exact absurd (.inl ⟨BitVec.eq_of_toNat_eq (by simpa using h1), BitVec.eq_of_toNat_eq (by simpa using h2)⟩) hb
    case h_8 => cases h
    all_goals
      rename_i h2
      rw [h2]
      cases h
      simp only [FuncSig.plain, SType.withSubsts, SType.withSubst] at hv ⊢
      generalize SType.withSubst s SType.varT = t1 at hv ⊢
      try generalize SType.withSubst s SType.varIV = t2 at hv ⊢
      obtain ⟨o', l, e, ho, hv⟩ := hv.cons
      cases e
    · cases hv.nil
      exact rs_collIndices ho
    · obtain ⟨a, l, rfl, ha, hv⟩ := hv.cons
      obtain ⟨b, l, rfl, hb, hv⟩ := hv.cons
      obtain ⟨c, l, rfl, hc, hv⟩ := hv.cons
      cases hv.nil
      exact rs_collPatch ho ha hb hc
    · obtain ⟨a, l, rfl, ha, hv⟩ := hv.cons
      obtain ⟨b, l, rfl, hb, hv⟩ := hv.cons
      cases hv.nil
      exact rs_collUpdated ho ha hb
    · obtain ⟨a, l, rfl, ha, hv⟩ := hv.cons
      obtain ⟨b, l, rfl, hb, hv⟩ := hv.cons
      cases hv.nil
      exact rs_collUpdateMany ho ha hb
    · obtain ⟨a, l, rfl, ha, hv⟩ := hv.cons
      obtain ⟨b, l, rfl, hb, hv⟩ := hv.cons
      cases hv.nil
      exact rs_collIndexOf ho hb
    · obtain ⟨a, l, rfl, ha, hv⟩ := hv.cons
      cases hv.nil
      exact rs_collZip ho ha

end
end Verif
