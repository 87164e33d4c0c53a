import Verif.Proofs.Coll
import Verif.Proofs.FMap

set_option linter.unusedSimpArgs false
set_option linter.unusedVariables false

/-!
# C38: collection operations of scripts

`IsColl v t l` says that the value `v` is the collection of the items `l` with element type `t`.  Collections are shorter than
`2 ^ 31` (they are in memory, and their length is read as an `i32`).
-/

namespace Verif
open Spec
variable {G B T : Type} [DecidableEq G] [DecidableEq B] [DecidableEq (Value G B)] (W : World G B T) (C : EvalCtx G B)

/-- C38: a node that takes its operands as values evaluates them from left to right and applies the operation of
`Value.strictOp`, about which the theorems on `append`, `slice` and `size` speak. -/
theorem C38_strict_node (n : Nat) (o : SOp) (args : List (Expr G B)) (vs : List (Value G B)) (s s' : EvalSt G B)
    (hC : C.limit = none) (ho : o = .append ∨ o = .slice ∨ o = .sizeOf)
    (h : evalAll (eval W C n) args { s with cost := s.cost + 1 } = .ok (vs, s')) :
    eval W C (n + 1) (.op o args) s = EvalM.lift (Value.strictOp W C o vs) s' := by
  rw [eval_succ_run W C n _ s hC]
  show evalOp W C (eval W C n) o args _ = _
  rw [evalOp_strict W C _ o (by rcases ho with rfl | rfl | rfl <;> rfl), EvalM.bind_ok h]

/-- C38: `append` joins two collections of one element type. -/
theorem C38_append (a b : Value G B) (t : SType) (x y : List (Value G B)) (ha : IsColl a t x) (hb : IsColl b t y) :
    ∃ v, Value.strictOp W C .append [a, b] = .ok v ∧ IsColl v t (x ++ y) := by
  obtain ⟨v, h1, h2⟩ := fromVec_fit (ha.fit.append hb.fit)
  refine ⟨v, ?_, h2⟩
  show (a.asColl >>= fun x => b.asColl >>= fun y => if x.1.beq y.1 then Value.fromVec x.1 (x.2 ++ y.2) else .err .unexpectedValue) = _
  rw [ha.asColl, hb.asColl]
  simp only [Res.bind_ok, SType.beq_self, if_true, h1]

/-- C38: collections of different element types are not joined. -/
theorem C38_append_mixed (a b : Value G B) (t t' : SType) (x y : List (Value G B)) (ha : IsColl a t x) (hb : IsColl b t' y)
    (h : t ≠ t') : Value.strictOp W C .append [a, b] = .err .unexpectedValue := by
  show (a.asColl >>= fun x => b.asColl >>= fun y => if x.1.beq y.1 then Value.fromVec x.1 (x.2 ++ y.2) else .err .unexpectedValue) = _
  rw [ha.asColl, hb.asColl]
  simp only [Res.bind_ok]
  rw [if_neg]
  exact fun h' => h ((SType.beq_iff _ _).1 h')

example : Value.strictOp W C .append [.collByte [1], .collByte [2, 3]] = .ok (.collByte [1, 2, 3]) ∧
    Value.strictOp W C .append [.coll .int [.int 1], .coll .int [.int 5]] = .ok (.coll .int [.int 1, .int 5]) ∧
    Value.strictOp W C .append [.coll .int [.int 1], .coll .long [.long 5]] = .err .unexpectedValue :=
  ⟨rfl, rfl, C38_append_mixed W C _ _ .int .long _ _ (.items _ _ (by simp)) (.items _ _ (by simp)) (by simp)⟩

/-- C38: `slice(a, b)` gives the items with index from `a` (inclusive) to `b` (exclusive), for all integers `a` and `b`. -/
theorem C38_slice (v : Value G B) (t : SType) (l : List (Value G B)) (h : IsColl v t l) (hl : l.length < 2 ^ 31) (a b : BitVec 32) :
    ∃ r, Value.strictOp W C .slice [v, .int a, .int b] = .ok r ∧ IsColl r t ((l.take b.toInt.toNat).drop a.toInt.toNat) := by
  obtain ⟨r, h1, h2⟩ := fromVec_fit (h.fit.sub (l' := (l.take b.toInt.toNat).drop a.toInt.toNat)
    fun x hx => List.mem_of_mem_take (List.mem_of_mem_drop hx))
  refine ⟨r, ?_, h2⟩
  show (v.asColl >>= fun c => Value.fromVec c.1 (Value.sliceItems c.2 a b)) = _
  rw [h.asColl, Res.bind_ok, sliceItems_eq hl, h1]

example : Value.strictOp W C .slice [.collByte [1, 2, 3, 4], .int (-5), .int 2] = .ok (.collByte [1, 2]) ∧
    Value.strictOp W C .slice [.collByte [1, 2, 3, 4], .int 3, .int 2] = .ok (.collByte []) := ⟨rfl, rfl⟩

/-- C38: `size`. -/
theorem C38_size (v : Value G B) (t : SType) (l : List (Value G B)) (h : IsColl v t l) (hl : l.length < 2 ^ 31) :
    ∃ n, Value.strictOp W C .sizeOf [v] = .ok (.int n) ∧ n.toInt = l.length := by
  refine ⟨BitVec.ofNat 32 l.length, ?_, toInt_ofNat32 hl⟩
  show (v.asColl >>= fun c => pure (Value.int (BitVec.ofNat 32 c.2.length))) = _
  rw [h.asColl]; rfl

example : Value.strictOp W C .sizeOf [.collByte [1, 2, 3, 4]] = .ok (.int 4) := rfl

/-- C38: `byIndex` without a default gives the item or fails; all indices. -/
theorem C38_byIndex (n : Nat) (input index : Expr G B) (v : Value G B) (t : SType) (l : List (Value G B)) (i : BitVec 32)
    (s s' s'' : EvalSt G B) (hC : C.limit = none) (hv : eval W C n input { s with cost := s.cost + 1 } = .ok (v, s'))
    (hi : eval W C n index s' = .ok (.int i, s'')) (h : IsColl v t l) (hl : l.length < 2 ^ 31) :
    eval W C (n + 1) (.byIndex input index []) s =
      match itemAt l i.toInt with
      | some x => .ok (x, s'')
      | none => .err .misc := by
  rw [eval_succ_run W C n _ s hC]
  show ((do
    let iv ← eval W C n input
    let ix ← eval W C n index
    let c ← EvalM.lift iv.asColl
    let i ← EvalM.lift ix.asInt
    EvalM.lift (Res.ofOption .misc c.2[usizeOf i]?)) : EvalM G B (Value G B)) _ = _
  rw [EvalM.bind_ok hv, EvalM.bind_ok hi, h.asColl]
  show (EvalM.lift (Res.ofOption .misc l[usizeOf i]?) : EvalM G B (Value G B)) s'' = _
  rw [getElem?_usize hl]
  cases itemAt l i.toInt <;> rfl

/-- C38: with a default, `byIndex` gives the item or the default, which is evaluated in any case. -/
theorem C38_byIndex_default (n : Nat) (input index d : Expr G B) (rest : List (Expr G B)) (v dv : Value G B) (t : SType)
    (l : List (Value G B)) (i : BitVec 32) (s s' s'' s3 : EvalSt G B) (hC : C.limit = none)
    (hv : eval W C n input { s with cost := s.cost + 1 } = .ok (v, s')) (hi : eval W C n index s' = .ok (.int i, s''))
    (hd : eval W C n d s'' = .ok (dv, s3)) (h : IsColl v t l) (hl : l.length < 2 ^ 31) :
    eval W C (n + 1) (.byIndex input index (d :: rest)) s = .ok ((itemAt l i.toInt).getD dv, s3) := by
  rw [eval_succ_run W C n _ s hC]
  show ((do
    let iv ← eval W C n input
    let ix ← eval W C n index
    let c ← EvalM.lift iv.asColl
    let dv ← eval W C n d
    let i ← EvalM.lift ix.asInt
    pure (c.2[usizeOf i]?.getD dv)) : EvalM G B (Value G B)) _ = _
  rw [EvalM.bind_ok hv, EvalM.bind_ok hi, h.asColl, EvalM.bind_ok (EvalM.lift_ok_run _ _), EvalM.bind_ok hd]
  show (pure (l[usizeOf i]?.getD dv) : EvalM G B (Value G B)) s3 = _
  rw [getElem?_usize hl]; rfl

example (hC : C.limit = none) (s : EvalSt G B) :
    eval W C 2 (.byIndex (.const { tpe := .collByte, v := .collByte [7, 8] }) (.const { tpe := .int, v := .int 1 }) []) s =
      .ok (.byte 8, { s with cost := s.cost + 3 }) ∧
    eval W C 2 (.byIndex (.const { tpe := .collByte, v := .collByte [7, 8] }) (.const { tpe := .int, v := .int (-1) }) []) s =
      .err .misc := by
  have e : ∀ c s, eval W C 1 (.const c) s = .ok (Value.ofLiteral c.v, { s with cost := s.cost + 1 }) :=
    fun c s => by rw [eval_succ_run W C 0 _ _ hC]; rfl
  exact ⟨C38_byIndex W C 1 _ _ (.collByte [7, 8]) .byte [.byte 7, .byte 8] 1 s _ _ hC (e _ _) (e _ _) (.bytes [7, 8]) (by simp),
    C38_byIndex W C 1 _ _ (.collByte [7, 8]) .byte [.byte 7, .byte 8] (-1) s _ _ hC (e _ _) (e _ _) (.bytes [7, 8]) (by simp)⟩

/-! ## Methods -/

/-- C38: `updated` replaces one item; an index outside the collection is an error. -/
theorem C38_updated (v x : Value G B) (t : SType) (l : List (Value G B)) (h : IsColl v t l) (hl : l.length < 2 ^ 31)
    (hx : Fit t [x]) (i : BitVec 32) :
    (0 ≤ i.toInt ∧ i.toInt < l.length → ∃ r, Value.pureMethod W C 12 20 v [.int i, x] = .ok r ∧
      IsColl r t (l.set i.toInt.toNat x)) ∧
    (¬ (0 ≤ i.toInt ∧ i.toInt < l.length) → Value.pureMethod W C 12 20 v [.int i, x] = .err .unexpectedValue) := by
  have unf : Value.pureMethod W C 12 20 v [.int i, x] =
      (v.asColl >>= fun c => if usizeOf i < c.2.length then Value.fromVec c.1 (c.2.set (usizeOf i) x) else .err .unexpectedValue) := rfl
  rw [unf, h.asColl, Res.bind_ok]
  constructor
  · intro hi
    have hu := (usizeOf_lt_iff hl i).2 hi
    rw [if_pos hu, usizeOf_nonneg hi.1]
    apply fromVec_fit
    intro e y hy
    rcases List.mem_or_eq_of_mem_set hy with hy | rfl
    · exact h.fit e y hy
    · exact hx e y (by simp)
  · intro hi
    rw [if_neg fun hu => hi ((usizeOf_lt_iff hl i).1 hu)]

example : Value.pureMethod W C 12 20 (.coll .int [.int 1, .int 2]) [.int 1, .int 9] = .ok (.coll .int [.int 1, .int 9]) ∧
    Value.pureMethod W C 12 20 (.coll .int [.int 1, .int 2]) [.int (-1), .int 9] = .err .unexpectedValue := ⟨rfl, rfl⟩

/-- C38: `updateMany` applies all updates, the last one for an index winning; it fails if an index is outside the collection. -/
theorem C38_updateMany (v iv uv : Value G B) (t : SType) (l us : List (Value G B)) (is : List (BitVec 32))
    (h : IsColl v t l) (hl : l.length < 2 ^ 31) (hi : iv = .coll .int (is.map .int)) (hu : IsColl uv t us)
    (hlen : is.length = us.length) :
    ((∀ i ∈ is, 0 ≤ i.toInt ∧ i.toInt < l.length) → ∃ r l', Value.pureMethod W C 12 21 v [iv, uv] = .ok r ∧ IsColl r t l' ∧
      l'.length = l.length ∧
      ∀ j : Nat, j < l.length → l'[j]? = (lastUpdate ((is.map BitVec.toInt).zip us) j).or l[j]?) ∧
    ((∃ i ∈ is, ¬ (0 ≤ i.toInt ∧ i.toInt < l.length)) → Value.pureMethod W C 12 21 v [iv, uv] = .err .unexpectedValue) := by
  subst hi
  have hm : ∀ is : List (BitVec 32), Res.mapAll (Value.asInt (G := G) (B := B)) (is.map .int) = .ok is := by
    intro is
    induction is with
    | nil => rfl
    | cons a l ih => rw [List.map_cons, Res.mapAll, ih]; rfl
  have unf : Value.pureMethod W C 12 21 v [.coll .int (is.map .int), uv] =
      (v.asColl >>= fun c => uv.asColl >>= fun u => Res.mapAll Value.asInt (is.map .int) >>= fun idx =>
        if idx.length ≠ u.2.length then .err .unexpectedValue
        else if c.1.beq u.1 then (Value.updateLoop (idx.zip u.2) c.2 >>= fun l => Value.fromVec c.1 l)
        else .err .unexpectedValue) := rfl
  rw [unf, h.asColl, hu.asColl, hm]
  simp only [Res.bind_ok, SType.beq_self, if_true]
  rw [if_neg (by simpa using hlen)]
  have hz : ((is.zip us).map fun p => (p.1.toInt, p.2)) = (is.map BitVec.toInt).zip us := by
    rw [List.zip_map_left]; rfl
  constructor
  · intro hr
    obtain ⟨r, h1, h2, h3⟩ := updateLoop_ok (is.zip us) l hl fun p hp => hr p.1 (List.of_mem_zip hp).1
    rw [h1, Res.bind_ok]
    have hfit : Fit t r := by
      intro e y hy
      obtain ⟨j, hj, hjy⟩ := List.getElem_of_mem hy
      have := h3 j (by omega)
      rw [List.getElem?_eq_getElem hj, hjy] at this
      rw [hz] at this
      cases hlu : lastUpdate ((is.map BitVec.toInt).zip us) j with
      | none =>
        rw [hlu, Option.none_or] at this
        exact h.fit e y (List.mem_of_getElem? this.symm)
      | some u =>
        rw [hlu, Option.some_or] at this
        cases this
        unfold lastUpdate at hlu
        obtain ⟨p, hp, rfl⟩ := Option.map_eq_some_iff.1 hlu
        have := List.mem_of_find?_eq_some hp
        rw [List.mem_reverse] at this
        exact hu.fit e _ (List.of_mem_zip this).2
    obtain ⟨w, hw1, hw2⟩ := fromVec_fit hfit
    refine ⟨w, r, hw1, hw2, h2, fun j hj => ?_⟩
    rw [h3 j hj, hz]
  · rintro ⟨i, hi, hn⟩
    obtain ⟨k, hk, hki⟩ := List.getElem_of_mem hi
    rw [updateLoop_err (is.zip us) l hl ⟨(is.zip us)[k]'(by simp; omega), List.getElem_mem _, by
      rw [List.getElem_zip]; simpa [hki] using hn⟩]
    rfl

example : Value.pureMethod W C 12 21 (.coll .int [.int 1, .int 2, .int 3]) [.coll .int [.int 2, .int 0, .int 2],
    .coll .int [.int 7, .int 8, .int 9]] = .ok (.coll .int [.int 8, .int 2, .int 9]) := rfl

/-- C38, as far as it holds: `patch(from, patch, replaced)` with non-negative `from` and `replaced`.  (For negative arguments, which
should count as 0, see `C38_violation_patch`.) -/
theorem C38_patch_partial (v p : Value G B) (t t' : SType) (l pl : List (Value G B)) (h : IsColl v t l) (hp : IsColl p t' pl)
    (hf : Fit t pl) (start rep : BitVec 32) (h1 : 0 ≤ start.toInt) (h2 : 0 ≤ rep.toInt) :
    ∃ r, Value.pureMethod W C 12 19 v [.int start, p, .int rep] = .ok r ∧
      IsColl r t (l.take start.toInt.toNat ++ pl ++ l.drop (start.toInt.toNat + rep.toInt.toNat)) := by
  have unf : Value.pureMethod W C 12 19 v [.int start, p, .int rep] =
      (v.asColl >>= fun c => p.asColl >>= fun q => Res.ofOutcome .misc (addU64 W.mode (usizeOf start) (usizeOf rep)) >>= fun skip =>
        Value.fromVec c.1 (c.2.take (usizeOf start) ++ q.2 ++ c.2.drop skip)) := rfl
  have b1 := BitVec.toInt_lt (x := start)
  have b2 := BitVec.toInt_lt (x := rep)
  have ha : addU64 W.mode (usizeOf start) (usizeOf rep) = .ok (start.toInt.toNat + rep.toInt.toNat) := by
    rw [usizeOf_nonneg h1, usizeOf_nonneg h2]
    unfold addU64
    rw [if_pos (by omega)]
  rw [unf, h.asColl, hp.asColl, ha, usizeOf_nonneg h1]
  exact fromVec_fit (((h.fit.sub fun x hx => List.mem_of_mem_take hx).append hf).append
    (h.fit.sub fun x hx => List.mem_of_mem_drop hx))

example : Value.pureMethod W C 12 19 (.collByte [1, 2, 3, 4]) [.int 1, .collByte [9, 9, 9], .int 2] = .ok (.collByte [1, 9, 9, 9, 4]) := rfl

/-- C38, violation: a negative `from` or `replaced` counts as a huge number.  With `from = -1`, `replaced = 0` the patch goes to
the end; with `from = -1`, `replaced = 1` the sum overflows: a panic in a debug build, and in a release build the result has the
whole collection before and after the patch. -/
theorem C38_violation_patch (l p : List (Value G B)) (t : SType) (ht : t ≠ .byte) (hl : l.length < 2 ^ 31) :
    Value.pureMethod W C 12 19 (.coll t l) [.int (-1), .coll t p, .int 0] = .ok (.coll t (l ++ p)) ∧
    (W.mode = .debug → Value.pureMethod W C 12 19 (.coll t l) [.int (-1), .coll t p, .int 1] = .panic) ∧
    (W.mode = .release → Value.pureMethod W C 12 19 (.coll t l) [.int (-1), .coll t p, .int 1] = .ok (.coll t (l ++ p ++ l))) := by
  have unf : ∀ a b, Value.pureMethod W C 12 19 (.coll t l) [.int a, .coll t p, .int b] =
      (Res.ofOutcome .misc (addU64 W.mode (usizeOf a) (usizeOf b)) >>= fun skip =>
        Value.fromVec t (l.take (usizeOf a) ++ p ++ l.drop skip)) := fun _ _ => rfl
  have h1 : usizeOf (-1) = 2 ^ 64 - 1 := by decide
  have h0 : usizeOf 0 = 0 := by decide
  have h2 : usizeOf 1 = 1 := by decide
  have ht' : l.take (2 ^ 64 - 1) = l := List.take_of_length_le (by omega)
  have fv : ∀ x : List (Value G B), Value.fromVec t x = .ok (.coll t x) := by
    intro x
    unfold Value.fromVec
    split
    · exact absurd rfl ht
    · rfl
  refine ⟨?_, fun hm => ?_, fun hm => ?_⟩
  · rw [unf, h1, h0, ht', addU64.eq_def, if_pos (by decide)]
    simp only [Res.ofOutcome, Res.bind_ok]
    rw [List.drop_eq_nil_of_le (by omega), fv, List.append_nil]
  · rw [unf, h1, h2, addU64.eq_def, if_neg (by decide), hm]; rfl
  · rw [unf, h1, h2, addU64.eq_def, if_neg (by decide), hm, ht']
    have e : (2 ^ 64 - 1 + 1) % 2 ^ 64 = 0 := by decide
    simp only [Res.ofOutcome, Res.bind_ok, e, List.drop_zero, fv]

/-- C38: `zip` pairs items by index and stops at the shorter collection. -/
theorem C38_zip (v w : Value G B) (t t' : SType) (l l' : List (Value G B)) (h : IsColl v t l) (h' : IsColl w t' l') :
    ∃ r, Value.pureMethod W C 12 29 v [w] = .ok r ∧
      IsColl r (.tuple [t, t']) ((l.zip l').map fun p => .tup [p.1, p.2]) := by
  have unf : Value.pureMethod W C 12 29 v [w] = (v.asColl >>= fun c => w.asColl >>= fun d =>
      Value.fromVec (.tuple [c.1, d.1]) ((c.2.zip d.2).map fun p => .tup [p.1, p.2])) := rfl
  rw [unf, h.asColl, h'.asColl]
  exact fromVec_fit (t := .tuple [t, t']) fun e => by cases e

example : Value.pureMethod W C 12 29 (.collByte [1, 2]) [.coll .int [.int 5, .int 6, .int 7]] =
    .ok (.coll (.tuple [.byte, .int]) [.tup [.byte 1, .int 5], .tup [.byte 2, .int 6]]) := rfl

/-- C38: `indices` gives `0, 1, …, size - 1`. -/
theorem C38_indices (v : Value G B) (t : SType) (l : List (Value G B)) (h : IsColl v t l) (hl : l.length < 2 ^ 31) :
    ∃ is : List (BitVec 32), Value.pureMethod W C 12 14 v [] = .ok (.coll .int (is.map .int)) ∧
      is.map BitVec.toInt = (List.range l.length).map Int.ofNat := by
  have unf : Value.pureMethod W C 12 14 v [] = (v.asColl >>= fun c =>
      if c.2.length ≤ 2 ^ 31 then Value.fromVec .int ((List.range c.2.length).map fun i => .int (BitVec.ofNat 32 i))
      else .err .unexpectedValue) := rfl
  refine ⟨(List.range l.length).map (BitVec.ofNat 32), ?_, ?_⟩
  · rw [unf, h.asColl, Res.bind_ok, if_pos (show l.length ≤ _ by omega), List.map_map]; rfl
  · rw [List.map_map]
    apply List.map_congr_left
    intro i hi
    exact toInt_ofNat32 (by have := List.mem_range.1 hi; omega)

example : Value.pureMethod W C 12 14 (.collByte [9, 9, 9]) [] = .ok (.coll .int [.int 0, .int 1, .int 2]) := rfl

/-- C38, as far as it holds: `indexOf(x, from)` gives the first index of `x` that is at least `from` when `x` occurs and does
not occur before `from`.  (The intended statement has no such condition, and -1 when there is no such index; see
`C38_violation_indexOf`.) -/
theorem C38_indexOf_partial (v x : Value G B) (t : SType) (l : List (Value G B)) (h : IsColl v t l) (hl : l.length < 2 ^ 31)
    (start : BitVec 32) (k : Nat) (hk : l[k]? = some x) (hfirst : ∀ j : Nat, j < k → l[j]? ≠ some x) (hs : start.toInt ≤ k) :
    ∃ i, Value.pureMethod W C 12 26 v [x, .int start] = .ok (.int i) ∧ i.toInt = k := by
  have unf : Value.pureMethod W C 12 26 v [x, .int start] = (v.asColl >>= fun c =>
      match c.2.findIdx? (fun y => decide (y = x)) with
      | some i => .ok (.int (BitVec.ofNat 32 i))
      | none => .ok (.int start)) := rfl
  have hkl : k < l.length := (List.getElem?_eq_some_iff.1 hk).1
  have hf : l.findIdx? (fun y => decide (y = x)) = some k := by
    rw [List.findIdx?_eq_some_iff_getElem]
    refine ⟨hkl, ?_, fun j hj => ?_⟩
    · rw [List.getElem?_eq_getElem hkl] at hk
      simpa using hk
    · have := hfirst j hj
      rw [List.getElem?_eq_getElem (by omega)] at this
      simpa using this
  rw [unf, h.asColl, Res.bind_ok]
  dsimp only
  rw [hf]
  exact ⟨_, rfl, toInt_ofNat32 (by omega)⟩

example : ∃ i, Value.pureMethod W C 12 26 (.coll .int [.int 4, .int 5, .int 5]) [.int 5, .int 1] = .ok (.int i) ∧ i.toInt = (1 : Nat) :=
  C38_indexOf_partial W C _ (.int 5) .int [.int 4, .int 5, .int 5] (.items _ _ (by simp)) (by simp) 1 1 rfl
    (by intro j hj; have : j = 0 := by omega
        subst this; simp) (by decide)

/-- C38, violation: `indexOf` looks from the start whatever `from` is, and gives `from` when there is no such item. -/
theorem C38_violation_indexOf :
    Value.pureMethod W C 12 26 (.coll .int [.int 5, .int 4, .int 5]) [.int 5, .int 1] = .ok (.int 0) ∧
    ∀ start, Value.pureMethod W C 12 26 (.coll .int [.int 5, .int 4, .int 5]) [.int 7, .int start] = .ok (.int start) := by
  constructor
  · show (match ([.int 5, .int 4, .int 5] : List (Value G B)).findIdx? (fun y => decide (y = .int 5)) with
      | some i => Res.ok (.int (BitVec.ofNat 32 i))
      | none => .ok (.int 1) : Res (Value G B)) = _
    simp [List.findIdx?_cons]
  · intro start
    show (match ([.int 5, .int 4, .int 5] : List (Value G B)).findIdx? (fun y => decide (y = .int 7)) with
      | some i => Res.ok (.int (BitVec.ofNat 32 i))
      | none => .ok (.int start) : Res (Value G B)) = _
    simp [List.findIdx?_cons]

/-- C38, violation: `updated` does not look at the type of the new item: the result is a `Coll[Int]` with a Boolean in it. -/
theorem C38_violation_updated_type :
    Value.pureMethod W C 12 20 (.coll .int [.int 1]) [.int 0, .bool true] = .ok (.coll .int [.bool true]) := rfl

/-! ## Higher-order operations -/

/-- Evaluating the two operands of `map` and its like. -/
structure Operands (n : Nat) (input f : Expr G B) (s : EvalSt G B) (env : FMap (BitVec 32) (Value G B)) (v fv : Value G B) : Prop where
  evals : ∃ s' c, eval W C n input { s with cost := s.cost + 1 } = .ok (v, s') ∧
    eval W C n f s' = .ok (fv, { env := env, cost := c })

/-- C38: `map` applies the function to every item, in order. -/
theorem C38_map (n : Nat) (input mapper : Expr G B) (s : EvalSt G B) (env : FMap (BitVec 32) (Value G B)) (v f : Value G B)
    (d range : SType) (ds : List SType) (ps : List Bytes) (l : List (Value G B)) (g : Value G B → Value G B)
    (P : Value G B → Prop) (hC : C.limit = none)
    (ho : Operands W C n input mapper s env v f) (ht : mapper.tpe = .func (d :: ds) range ps) (h : IsColl v d l)
    (hf : Computes (eval W C n) env f P g) (hP : ∀ x ∈ l, P x) (hfit : Fit range (l.map g)) :
    ∃ r c, eval W C (n + 1) (.op .map [input, mapper]) s = .ok (r, { env := env, cost := c }) ∧ IsColl r range (l.map g) := by
  obtain ⟨s', c, h1, h2⟩ := ho.evals
  obtain ⟨c', h3⟩ := callEach_computes hf l hP c
  obtain ⟨r, h4, h5⟩ := fromVec_fit hfit
  refine ⟨r, c', ?_, h5⟩
  rw [eval_succ_run W C n _ s hC]
  show evalOp W C (eval W C n) .map [input, mapper] _ = _
  unfold evalOp
  dsimp only
  rw [EvalM.bind_ok h1, EvalM.bind_ok h2, ht]
  dsimp only
  have h6 : itemsOf d v = .ok l := by
    show (v.asColl >>= fun c => if c.1.beq d then pure c.2 else .err .unexpectedValue) = _
    rw [h.asColl]; simp [SType.beq_self]
  rw [h6, EvalM.bind_ok (EvalM.lift_ok_run _ _), EvalM.bind_ok h3, h4]; rfl

/-- C38: `filter` keeps the items with a true condition, in order. -/
theorem C38_filter (n : Nat) (input cond : Expr G B) (s : EvalSt G B) (env : FMap (BitVec 32) (Value G B)) (v f : Value G B)
    (t : SType) (l : List (Value G B)) (p : Value G B → Bool) (P : Value G B → Prop) (hC : C.limit = none)
    (ho : Operands W C n input cond s env v f) (ht : input.tpe.postEval = .coll t) (h : IsColl v t l)
    (hf : Computes (eval W C n) env f P fun x => .bool (p x)) (hP : ∀ x ∈ l, P x) :
    ∃ r c, eval W C (n + 1) (.op .filter [input, cond]) s = .ok (r, { env := env, cost := c }) ∧ IsColl r t (l.filter p) := by
  obtain ⟨s', c, h1, h2⟩ := ho.evals
  obtain ⟨c', h3⟩ := callConds_computes hf l hP c
  obtain ⟨r, h4, h5⟩ := fromVec_fit (h.fit.sub (l' := l.filter p) fun x hx => (List.mem_filter.1 hx).1)
  refine ⟨r, c', ?_, h5⟩
  rw [eval_succ_run W C n _ s hC]
  show evalOp W C (eval W C n) .filter [input, cond] _ = _
  unfold evalOp
  dsimp only
  rw [EvalM.bind_ok h1, EvalM.bind_ok h2, ht]
  have h6 : itemsOf (collElem (.coll t)) v = .ok l := by
    show (v.asColl >>= fun c => if c.1.beq t then pure c.2 else .err .unexpectedValue) = _
    rw [h.asColl]; simp [SType.beq_self]
  rw [h6, EvalM.bind_ok (EvalM.lift_ok_run _ _), EvalM.bind_ok h3, zip_filter]
  show (EvalM.lift (Value.fromVec t _) : EvalM G B (Value G B)) _ = _
  rw [h4]; rfl

/-- C38: `exists` says whether the condition holds of some item.  It stops at the first such item: nothing is asked of the items
`rest` after it. -/
theorem C38_exists (n : Nat) (input cond : Expr G B) (s : EvalSt G B) (env : FMap (BitVec 32) (Value G B)) (v f : Value G B)
    (t : SType) (l rest : List (Value G B)) (p : Value G B → Bool) (P : Value G B → Prop) (hC : C.limit = none)
    (ho : Operands W C n input cond s env v f) (ht : input.tpe.postEval = .coll t) (h : IsColl v t (l ++ rest))
    (hf : Computes (eval W C n) env f P fun x => .bool (p x)) (hP : ∀ x ∈ l, P x) (hr : l.any p = true ∨ rest = []) :
    ∃ c, eval W C (n + 1) (.op .anyOf [input, cond]) s = .ok (.bool (l.any p), { env := env, cost := c }) := by
  obtain ⟨s', c, h1, h2⟩ := ho.evals
  obtain ⟨c', h3⟩ := callAny_computes hf l rest hP hr c
  refine ⟨c', ?_⟩
  rw [eval_succ_run W C n _ s hC]
  show evalOp W C (eval W C n) .anyOf [input, cond] _ = _
  unfold evalOp
  dsimp only
  rw [EvalM.bind_ok h1, EvalM.bind_ok h2, ht]
  have h6 : itemsOf (collElem (.coll t)) v = .ok (l ++ rest) := by
    show (v.asColl >>= fun c => if c.1.beq t then pure c.2 else .err .unexpectedValue) = _
    rw [h.asColl]; simp [SType.beq_self]
  rw [h6, EvalM.bind_ok (EvalM.lift_ok_run _ _), EvalM.bind_ok h3]; rfl

/-- C38: `forall` says whether the condition holds of every item.  It stops at the first item of which it does not. -/
theorem C38_forall (n : Nat) (input cond : Expr G B) (s : EvalSt G B) (env : FMap (BitVec 32) (Value G B)) (v f : Value G B)
    (t : SType) (l rest : List (Value G B)) (p : Value G B → Bool) (P : Value G B → Prop) (hC : C.limit = none)
    (ho : Operands W C n input cond s env v f) (ht : input.tpe.postEval = .coll t) (h : IsColl v t (l ++ rest))
    (hf : Computes (eval W C n) env f P fun x => .bool (p x)) (hP : ∀ x ∈ l, P x) (hr : l.all p = false ∨ rest = []) :
    ∃ c, eval W C (n + 1) (.op .forAll [input, cond]) s = .ok (.bool (l.all p), { env := env, cost := c }) := by
  obtain ⟨s', c, h1, h2⟩ := ho.evals
  obtain ⟨c', h3⟩ := callForAll_computes hf l rest hP hr c
  refine ⟨c', ?_⟩
  rw [eval_succ_run W C n _ s hC]
  show evalOp W C (eval W C n) .forAll [input, cond] _ = _
  unfold evalOp
  dsimp only
  rw [EvalM.bind_ok h1, EvalM.bind_ok h2, ht]
  have h6 : itemsOf (collElem (.coll t)) v = .ok (l ++ rest) := by
    show (v.asColl >>= fun c => if c.1.beq t then pure c.2 else .err .unexpectedValue) = _
    rw [h.asColl]; simp [SType.beq_self]
  rw [h6, EvalM.bind_ok (EvalM.lift_ok_run _ _), EvalM.bind_ok h3]; rfl

/-- C38: `fold` is the left fold of the operation, which gets the accumulator and the item as a pair.  `Q` is an invariant of the
accumulator. -/
theorem C38_fold (n : Nat) (input zero op : Expr G B) (s s1 s2 : EvalSt G B) (env : FMap (BitVec 32) (Value G B)) (c : Nat)
    (v z f : Value G B) (t : SType) (l : List (Value G B)) (g : Value G B → Value G B → Value G B) (P Q : Value G B → Prop)
    (hC : C.limit = none) (h1 : eval W C n input { s with cost := s.cost + 1 } = .ok (v, s1))
    (h2 : eval W C n zero s1 = .ok (z, s2)) (h3 : eval W C n op s2 = .ok (f, { env := env, cost := c })) (h : IsColl v t l)
    (hf : ∀ acc x, Q acc → P x → Q (g acc x) ∧ ∀ c, ∃ c', callLam (eval W C n) f (.tup [acc, x]) { env := env, cost := c } =
      .ok (g acc x, { env := env, cost := c' })) (hP : ∀ x ∈ l, P x) (hQ : Q z) :
    ∃ c', eval W C (n + 1) (.op .fold [input, zero, op]) s = .ok (l.foldl g z, { env := env, cost := c' }) := by
  obtain ⟨c', h4⟩ := callFold_computes hf l z hP hQ c
  refine ⟨c', ?_⟩
  rw [eval_succ_run W C n _ s hC]
  show evalOp W C (eval W C n) .fold [input, zero, op] _ = _
  unfold evalOp
  dsimp only
  rw [EvalM.bind_ok h1, EvalM.bind_ok h2, EvalM.bind_ok h3, h.asColl, EvalM.bind_ok (EvalM.lift_ok_run _ _), h4]

omit [DecidableEq G] [DecidableEq B] [DecidableEq (Value G B)] in
/-- Setting a variable and restoring it gives the environment back. -/
theorem env_roundtrip (env : FMap (BitVec 32) (Value G B)) (i : BitVec 32) (x : Value G B) :
    (match env.get i with
     | some old => (env.insert i x).insert i old
     | none => (env.insert i x).erase i) = env := by
  induction env with
  | nil => simp [FMap.get, FMap.insert, FMap.erase]
  | cons p m ih =>
    obtain ⟨k, v⟩ := p
    by_cases hk : k = i
    · subst hk; simp [FMap.get, FMap.insert]
    · simp only [FMap.get, FMap.insert, hk, if_false]
      revert ih
      cases FMap.get m i <;> simp [FMap.insert, FMap.erase, hk]

/-- A function that meets the hypotheses: `x => x == k`, in any environment. -/
theorem computes_eq (n : Nat) (env : FMap (BitVec 32) (Value G B)) (hC : C.limit = none) (k : Constant G B) :
    Computes (eval W C (n + 2)) env (.lam [(1, .int)] (.bin .eq (.valUse 1 .int) (.const k))) (fun _ => True)
      fun x => .bool (decide (x = Value.ofLiteral k.v)) := by
  intro x _ c
  refine ⟨c + 4, ?_⟩
  have hg : (FMap.insert env 1 x).get 1 = some x := by rw [FMap.get_insert]; simp
  have hu : ∀ c, eval W C (n + 1) (.valUse 1 .int) { env := FMap.insert env 1 x, cost := c } =
      .ok (x, { env := FMap.insert env 1 x, cost := c + 1 }) := by
    intro c
    rw [eval_succ_run W C _ _ _ hC]
    show useVar 1 _ = _
    unfold useVar
    dsimp only
    rw [hg]
  have hk : ∀ s, eval W C (n + 1) (.const k) s = .ok (Value.ofLiteral k.v, { s with cost := s.cost + 1 }) := by
    intro s
    rw [eval_succ_run W C _ _ _ hC]; rfl
  have hb : eval W C (n + 2) (.bin .eq (.valUse 1 .int) (.const k)) { env := FMap.insert env 1 x, cost := c } =
      .ok (.bool (decide (x = Value.ofLiteral k.v)), { env := FMap.insert env 1 x, cost := c + 4 }) := by
    rw [eval_succ_run W C _ _ _ hC]
    show evalBin C (eval W C (n + 1)) .eq _ _ _ = _
    unfold evalBin
    rw [hC]
    rw [EvalM.bind_ok (show addCost none _ = _ from rfl), EvalM.bind_ok (hu _)]
    dsimp only
    rw [EvalM.bind_ok (hk _)]; rfl
  show withArg 1 x _ _ = _
  unfold withArg
  rw [hb]
  dsimp only
  have := env_roundtrip env 1 x
  revert this
  cases env.get 1 <;> (intro h; dsimp only at h ⊢; rw [h])

/-- The hypotheses of `C38_filter` hold of `coll.filter { (x: Int) => x == 5 }` for every collection of integers in the context. -/
example (hC : C.limit = none) (l : List (BitVec 32)) (s : EvalSt G B) :
    let e := Expr.op .filter [.const ⟨.coll .int, .coll .int (l.map .int)⟩,
      .func [(1, .int)] (.bin .eq (.valUse 1 .int) (.const ⟨.int, .int 5⟩))]
    ∃ r c, eval W C 3 e s = .ok (r, { s with cost := c }) ∧ IsColl r .int ((l.map .int).filter fun x => decide (x = .int 5)) := by
  have hc : Operands W C 2 (.const ⟨.coll .int, .coll .int (l.map .int)⟩)
      (.func [(1, .int)] (.bin .eq (.valUse 1 .int) (.const ⟨.int, .int 5⟩))) s s.env (.coll .int (l.map .int))
      (.lam [(1, .int)] (.bin .eq (.valUse 1 .int) (.const ⟨.int, .int 5⟩))) := by
    refine ⟨{ s with cost := s.cost + 2 }, s.cost + 3, ?_, ?_⟩
    · rw [eval_succ_run W C _ _ _ hC]
      have : ∀ l : List (BitVec 32), Value.ofLiterals (l.map Literal.int) = (l.map Value.int : List (Value G B)) := by
        intro l; induction l with
        | nil => rfl
        | cons a l ih => simp [Value.ofLiterals, Value.ofLiteral, ih]
      show Res.ok (Value.coll .int (Value.ofLiterals (l.map .int)), _) = _
      rw [this]
    · rw [eval_succ_run W C _ _ _ hC]; rfl
  exact C38_filter W C 2 _ _ s s.env _ _ .int _ _ (fun _ => True) hC hc rfl (.items _ _ (by simp))
    (computes_eq W C 0 s.env hC ⟨.int, .int 5⟩) (by simp)

/-! ## C52: `flatMap` -/

omit [DecidableEq G] [DecidableEq B] [DecidableEq (Value G B)] in
theorem mapAll_asVec (l : List (Value G B)) (g : Value G B → SType × List (Value G B)) :
    Res.mapAll (Value.asVecOf .ok) (l.map fun x => .coll (g x).1 (g x).2) = .ok (l.map fun x => (g x).2) := by
  have hid : ∀ l : List (Value G B), Res.mapAll Res.ok l = .ok l := by
    intro l
    induction l with
    | nil => rfl
    | cons a l ih => simp [Res.mapAll, ih]
  induction l with
  | nil => rfl
  | cons a l ih => simp [Res.mapAll, ih, Value.asVecOf, hid]

/-- C52, as far as it holds: if every call gives a (non-byte) collection, the items of `flatMap` are those of the calls one after
the other.  (The intended statement has the element type of the inner collections, where the code has the type of the inner
collection itself, and includes byte collections; see the violations below.) -/
theorem C52_flatMap_partial (n : Nat) (env : FMap (BitVec 32) (Value G B)) (c : Nat) (v : Value G B) (t : SType) (l : List (Value G B))
    (i : BitVec 32) (body : Expr G B) (P : Value G B → Prop) (g : Value G B → SType × List (Value G B)) (h : IsColl v t l)
    (hb : flatMapBody body = true) (ht : body.tpe ≠ .byte)
    (hf : Computes (eval W C n) env (.lam [(i, t)] body) P fun x => .coll (g x).1 (g x).2) (hP : ∀ x ∈ l, P x) :
    ∃ c', callMethod W C (eval W C n) 12 15 v [.lam [(i, t)] body] { env := env, cost := c } =
      .ok (.coll body.tpe (l.flatMap fun x => (g x).2), { env := env, cost := c' }) := by
  obtain ⟨c', h3⟩ := callEach_computes hf l hP c
  refine ⟨c', ?_⟩
  have h6 : itemsOf t v = .ok l := by
    show (v.asColl >>= fun c => if c.1.beq t then pure c.2 else .err .unexpectedValue) = _
    rw [h.asColl]; simp [SType.beq_self]
  show flatMapMethod (eval W C n) v [.lam [(i, t)] body] _ = _
  unfold flatMapMethod
  rw [EvalM.bind_ok (show EvalM.lift (Value.argOf .notFound 0 [Value.lam [(i, t)] body]) _ = _ from rfl)]
  dsimp only
  rw [if_neg (by simp), if_pos hb, h6, EvalM.bind_ok (EvalM.lift_ok_run _ _), EvalM.bind_ok h3]
  have h7 : Value.fromVecVec body.tpe (l.map fun x => .coll (g x).1 (g x).2) = .ok (.coll body.tpe (l.flatMap fun x => (g x).2)) := by
    unfold Value.fromVecVec
    split
    · next e => exact absurd e ht
    · rw [mapAll_asVec, Res.bind_ok, List.flatMap_def]; rfl
  rw [h7]; rfl

/-- C52, violation: with a body of type `Coll[Byte]`, such as `box.id`, `box.bytes` or `prop.propBytes`, `flatMap` fails on every
collection of at least one item. -/
theorem C52_violation_bytes (n : Nat) (env : FMap (BitVec 32) (Value G B)) (c : Nat) (v : Value G B) (t : SType) (x : Value G B)
    (l : List (Value G B)) (i : BitVec 32) (body : Expr G B) (P : Value G B → Prop) (g : Value G B → Bytes) (h : IsColl v t (x :: l))
    (hb : flatMapBody body = true) (ht : body.tpe = .coll .byte)
    (hf : Computes (eval W C n) env (.lam [(i, t)] body) P fun x => .collByte (g x)) (hP : ∀ y ∈ x :: l, P y) :
    callMethod W C (eval W C n) 12 15 v [.lam [(i, t)] body] { env := env, cost := c } = .err .tryExtract := by
  obtain ⟨c', h3⟩ := callEach_computes hf (x :: l) hP c
  have h6 : itemsOf t v = .ok (x :: l) := by
    show (v.asColl >>= fun c => if c.1.beq t then pure c.2 else .err .unexpectedValue) = _
    rw [h.asColl]; simp [SType.beq_self]
  show flatMapMethod (eval W C n) v [.lam [(i, t)] body] _ = _
  unfold flatMapMethod
  rw [EvalM.bind_ok (show EvalM.lift (Value.argOf .notFound 0 [Value.lam [(i, t)] body]) _ = _ from rfl)]
  dsimp only
  rw [if_neg (by simp), if_pos hb, h6, EvalM.bind_ok (EvalM.lift_ok_run _ _), EvalM.bind_ok h3, ht]
  rfl

/-- A function that meets the hypotheses of `C52_flatMap_partial`: `x => x.indices`. -/
theorem computes_indices (n : Nat) (env : FMap (BitVec 32) (Value G B)) (hC : C.limit = none) (sig : FuncSig) :
    Computes (eval W C (n + 2)) env (.lam [(1, .coll .long)] (.method 12 14 sig (.valUse 1 (.coll .long)) []))
      (fun x => ∃ l, x = .coll .long l ∧ l.length ≤ 2 ^ 31)
      fun x => .coll .int (match x with | .coll _ l => (List.range l.length).map fun i => .int (BitVec.ofNat 32 i) | _ => []) := by
  rintro x ⟨l, rfl, hl⟩ c
  refine ⟨c + 2, ?_⟩
  have hg : (FMap.insert env 1 (.coll .long l)).get 1 = some (.coll .long l) := by rw [FMap.get_insert]; simp
  have hu : ∀ c, eval W C (n + 1) (.valUse 1 (.coll .long)) { env := FMap.insert env 1 (.coll .long l), cost := c } =
      .ok (.coll .long l, { env := FMap.insert env 1 (.coll .long l), cost := c + 1 }) := by
    intro c
    rw [eval_succ_run W C _ _ _ hC]
    show useVar 1 _ = _
    unfold useVar
    dsimp only
    rw [hg]
  have hb : eval W C (n + 2) (.method 12 14 sig (.valUse 1 (.coll .long)) []) { env := FMap.insert env 1 (.coll .long l), cost := c } =
      .ok (.coll .int ((List.range l.length).map fun i => .int (BitVec.ofNat 32 i)),
        { env := FMap.insert env 1 (.coll .long l), cost := c + 2 }) := by
    rw [eval_succ_run W C _ _ _ hC]
    show (eval W C (n + 1) _ >>= fun o => evalAll (eval W C (n + 1)) [] >>= fun vs => callMethod W C _ 12 14 o vs) _ = _
    rw [EvalM.bind_ok (hu _), EvalM.bind_ok (show evalAll _ [] _ = .ok ([], _) from rfl)]
    show EvalM.lift (Value.pureMethod W C 12 14 (.coll .long l) []) _ = _
    have unf : Value.pureMethod W C 12 14 (.coll .long l) [] =
      if l.length ≤ 2 ^ 31 then Value.fromVec .int ((List.range l.length).map fun i => .int (BitVec.ofNat 32 i))
      else .err .unexpectedValue := rfl
    rw [unf, if_pos hl]; rfl
  show withArg 1 _ _ _ = _
  unfold withArg
  rw [hb]
  dsimp only
  have := env_roundtrip env 1 (.coll .long l)
  revert this
  cases env.get 1 <;> (intro h; dsimp only at h ⊢; rw [h])

/-- C52, violation: the result of `flatMap` has the wrong element type: `Coll[Coll[Long]]` flat-mapped with `indices` gives a
`Coll[Coll[Int]]` whose items are integers.  (The hypotheses of `C52_flatMap_partial` hold here.) -/
theorem C52_violation_type (hC : C.limit = none) (sig : FuncSig) (hsig : sig.range = .coll .int)
    (env : FMap (BitVec 32) (Value G B)) (c : Nat) :
    ∃ c', callMethod W C (eval W C 2) 12 15 (.coll (.coll .long) [.coll .long [.long 4, .long 5], .coll .long [.long 3]])
      [.lam [(1, .coll .long)] (.method 12 14 sig (.valUse 1 (.coll .long)) [])] { env := env, cost := c } =
      .ok (.coll (.coll .int) [.int 0, .int 1, .int 0], { env := env, cost := c' }) := by
  have ht : (Expr.method 12 14 sig (.valUse 1 (.coll .long)) [] : Expr G B).tpe = .coll .int := hsig
  obtain ⟨c', h⟩ := C52_flatMap_partial W C 2 env c
    (.coll (.coll .long) [.coll .long [.long 4, .long 5], .coll .long [.long 3]]) (.coll .long)
    [.coll .long [.long 4, .long 5], .coll .long [.long 3]] 1 (.method 12 14 sig (.valUse 1 (.coll .long)) []) _
    (h := .items _ _ (by simp)) (hb := rfl) (ht := by rw [ht]; simp) (g := fun x => (.int, _))
    (hf := computes_indices W C 0 env hC sig) (hP := by
      intro x hx
      simp only [List.mem_cons, List.not_mem_nil, or_false] at hx
      rcases hx with rfl | rfl
      · exact ⟨_, rfl, by simp⟩
      · exact ⟨_, rfl, by simp⟩)
  rw [ht] at h
  exact ⟨c', h⟩

end Verif
