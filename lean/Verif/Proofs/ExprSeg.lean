import Verif.Proofs.ExprRead

set_option linter.unusedVariables false
set_option linter.unusedSimpArgs false

/-! Constant segregation: a writer with a constant store writes the expression with its constants replaced by placeholders. -/

namespace Verif
open Spec Expr
variable {G B T : Type}

mutual
/-- The expression with its constants replaced by placeholders numbered from `n`. -/
def segR : Expr G B → Nat → Expr G B
  | .const c, n => .placeholder (BitVec.ofNat 32 n) c.tpe
  | .op o args, n => .op o (segRs args n)
  | .bin k l r, n =>
    if (boolConst? l).isSome && (boolConst? r).isSome then .bin k l r
    else .bin k (segR l n) (segR r (n + (constsOf l).length))
  | .cast u e t, n => .cast u (segR e n) t
  | .extractReg e r t, n => .extractReg (segR e n) r t
  | .selectField e i, n => .selectField (segR e n) i
  | .deserReg r t d, n => .deserReg r t (segOpt d n)
  | .byIndex e i d, n => .byIndex (segR e n) (segR i (n + (constsOf e).length))
      (segOpt d (n + (constsOf e).length + (constsOf i).length))
  | .createAvl a b c d, n => .createAvl (segR a n) (segR b (n + (constsOf a).length))
      (segR c (n + (constsOf a).length + (constsOf b).length))
      (segOpt d (n + (constsOf a).length + (constsOf b).length + (constsOf c).length))
  | .coll t items, n => .coll t (segRs items n)
  | .tuple items, n => .tuple (segRs items n)
  | .sigma u items, n => .sigma u (segRs items n)
  | .func args body, n => .func args (segR body n)
  | .apply e args, n => .apply (segR e n) (segRs args (n + (constsOf e).length))
  | .block items r, n => .block (segRs items n) (segR r (n + (constsOfs items).length))
  | .valDef id rhs, n => .valDef id (segR rhs n)
  | .method ti mi sig obj args, n => .method ti mi sig (segR obj n) (segRs args (n + (constsOf obj).length))
  | .property ti mi sig obj, n => .property ti mi sig (segR obj n)
  | .placeholder id t, _ => .placeholder id t
  | .valUse id t, _ => .valUse id t
  | .bools l, _ => .bools l
  | .getVar i t, _ => .getVar i t
  | .deserCtx t i, _ => .deserCtx t i
/-- List part of `segR`. -/
def segRs : List (Expr G B) → Nat → List (Expr G B)
  | [], _ => []
  | e :: l, n => segR e n :: segRs l (n + (constsOf e).length)
/-- `segR` of an optional sub-expression. -/
def segOpt : List (Expr G B) → Nat → List (Expr G B)
  | [], _ => []
  | e :: l, n => segR e n :: l
end

/-- Two runs of a writer, without and with a constant store, that write the same bytes (or fail alike). -/
def Par (w0 w1 : Outcome (Bytes × WStore G B)) (cs : List (Constant G B)) : Prop :=
  ∃ o : Outcome Bytes, w0 = (o >>= fun b => .ok (b, none)) ∧ w1 = (o >>= fun b => .ok (b, some cs))

theorem Par.pure (b : Bytes) (cs : List (Constant G B)) :
    Par (Pure.pure (b, none) : Outcome (Bytes × WStore G B)) (Pure.pure (b, some cs)) cs := ⟨.ok b, rfl, rfl⟩

theorem Par.bind {w0 w1 : Outcome (Bytes × WStore G B)} {c c' : List (Constant G B)}
    {f0 f1 : Bytes × WStore G B → Outcome (Bytes × WStore G B)} (h : Par w0 w1 c)
    (hf : ∀ b, Par (f0 (b, none)) (f1 (b, some c)) c') : Par (w0 >>= f0) (w1 >>= f1) c' := by
  obtain ⟨o, rfl, rfl⟩ := h
  cases o with
  | ok b => exact hf b
  | err => exact ⟨.err, rfl, rfl⟩
  | panic => exact ⟨.panic, rfl, rfl⟩

theorem Par.bindType {α : Type} {x : Outcome α} {c' : List (Constant G B)}
    {f0 f1 : α → Outcome (Bytes × WStore G B)}
    (hf : ∀ b, Par (f0 b) (f1 b) c') : Par (x >>= f0) (x >>= f1) c' := by
  cases x with
  | ok b => exact hf b
  | err => exact ⟨.err, rfl, rfl⟩
  | panic => exact ⟨.panic, rfl, rfl⟩

theorem boolConst?_segR (e : Expr G B) (n : Nat) : boolConst? (segR e n) = none := by
  cases e <;> try rfl
  rw [segR]
  split <;> rfl

theorem segRs_length : ∀ (l : List (Expr G B)) (n : Nat), (segRs l n).length = l.length
  | [], _ => rfl
  | e :: l, n => by simp only [segRs, List.length_cons, segRs_length l]

theorem Par.ofEq {w0 w1 w1' : Outcome (Bytes × WStore G B)} {c c' : List (Constant G B)} (h : Par w0 w1 c) (hw : w1 = w1')
    (hc : c = c') : Par w0 w1' c' := hw ▸ hc ▸ h

/-- Writing with a store is writing the segregated expression without one. -/
theorem ser_seg [DecidableEq G] (E : Sers G B T) (e : Expr G B) :
    ∀ (cs : List (Constant G B)) (n : Nat), n = cs.length → n + (constsOf e).length ≤ 2 ^ 32 - 1 →
      Par (ser E (segR e n) none) (ser E e (some cs)) (cs ++ constsOf e) := by
  refine Expr.rec
    (motive_1 := fun e => ∀ (cs : List (Constant G B)) (n : Nat), n = cs.length → n + (constsOf e).length ≤ 2 ^ 32 - 1 →
      Par (ser E (segR e n) none) (ser E e (some cs)) (cs ++ constsOf e))
    (motive_2 := fun l => (∀ (cs : List (Constant G B)) (n : Nat), n = cs.length →
        n + (constsOfs l).length ≤ 2 ^ 32 - 1 →
        Par (serAll E (segRs l n) none) (serAll E l (some cs)) (cs ++ constsOfs l)) ∧
      (∀ (cs : List (Constant G B)) (n : Nat), n = cs.length → n + (constsOfOpt l).length ≤ 2 ^ 32 - 1 →
        Par (serOpt E (segOpt l n) none) (serOpt E l (some cs)) (cs ++ constsOfOpt l)))
    ?_ ?_ ?_ ?_ ?_ ?_ ?_ ?_ ?_ ?_ ?_ ?_ ?_ ?_ ?_ ?_ ?_ ?_ ?_ ?_ ?_ ?_ ?_ ?_ ?_ e
  case refine_1 =>
    intro c cs n hn h
    simp only [constsOf, List.length_cons, List.length_nil, Nat.zero_add] at h
    subst hn
    rw [segR, ser, ser, constsOf]
    unfold putConst
    rw [if_pos h]
    exact Par.pure _ _
  case refine_6 =>
    intro k l r ihl ihr cs n hn h
    subst hn
    rw [segR]
    rw [constsOf] at h ⊢
    by_cases hc : ((boolConst? l).isSome && (boolConst? r).isSome) = true
    · rw [if_pos hc] at h ⊢
      rw [if_pos hc]
      simp only [Bool.and_eq_true, Option.isSome_iff_exists] at hc
      obtain ⟨⟨x, hx⟩, ⟨y, hy⟩⟩ := hc
      rw [ser, ser, hx, hy, List.append_nil]
      dsimp only
      split
      · exact Par.pure _ _
      · exact ⟨.err, rfl, rfl⟩
    · rw [if_neg hc] at h ⊢
      rw [if_neg hc]
      rw [List.length_append] at h
      rw [ser, ser, boolConst?_segR]
      dsimp only
      have key : Par (ser E (segR l cs.length) none >>= fun a =>
            ser E (segR r (cs.length + (constsOf l).length)) a.2 >>= fun b =>
              pure (k.code :: (a.1 ++ b.1), b.2))
          (ser E l (some cs) >>= fun a => ser E r a.2 >>= fun b =>
              pure (k.code :: (a.1 ++ b.1), b.2)) (cs ++ (constsOf l ++ constsOf r)) := by
        refine Par.bind (ihl cs _ rfl (by omega)) (fun b => ?_)
        refine Par.bind (ihr (cs ++ constsOf l) _ (by simp) (by omega)) (fun b' => ?_)
        exact Par.ofEq (Par.pure _ _) rfl (by simp)
      refine Par.ofEq key ?_ rfl
      split
      · rename_i h1 h2
        simp [h1, h2] at hc
      · rfl
  case refine_24 =>
    exact ⟨fun cs n hn h => ⟨.ok [], by rw [segRs, serAll]; rfl, by rw [serAll, constsOfs, List.append_nil]; rfl⟩,
      fun cs n hn h => ⟨.ok (putU8 0), by rw [segOpt, serOpt]; rfl, by rw [serOpt, constsOfOpt, List.append_nil]; rfl⟩⟩
  case refine_25 =>
    intro e l ihe ihl
    refine ⟨fun cs n hn h => ?_, fun cs n hn h => ?_⟩
    · subst hn
      rw [constsOfs] at h ⊢
      rw [List.length_append] at h
      rw [segRs, serAll, serAll]
      refine Par.bind (ihe cs _ rfl (by omega)) (fun b => ?_)
      refine Par.bind (ihl.1 (cs ++ constsOf e) _ (by simp) (by omega)) (fun b' => ?_)
      exact Par.ofEq (Par.pure _ _) rfl (by simp)
    · subst hn
      rw [constsOfOpt] at h ⊢
      rw [segOpt, serOpt, serOpt]
      exact Par.bind (ihe cs _ rfl h) (fun b => Par.pure _ _)
  all_goals intros
  all_goals rename_i hn h
  all_goals subst hn
  all_goals rw [constsOf] at h
  all_goals try simp only [List.length_append, List.length_nil] at h
  all_goals rw [constsOf, segR, ser, ser]
  case refine_2 => rw [List.append_nil]; exact Par.pure _ _
  case refine_3 => rw [List.append_nil]; exact Par.pure _ _
  case refine_4 => rw [List.append_nil]; exact Par.pure _ _
  case refine_5 ih cs => exact Par.bind (ih.1 cs _ rfl h) (fun b => Par.pure _ _)
  case refine_7 ih cs => exact Par.bind (ih cs _ rfl h) (fun b => Par.bindType (fun t => Par.pure _ _))
  case refine_8 ih cs => exact Par.bind (ih cs _ rfl h) (fun b => Par.bindType (fun t => Par.pure _ _))
  case refine_9 ih cs => exact Par.bind (ih cs _ rfl h) (fun b => Par.pure _ _)
  case refine_10 => rw [List.append_nil]; exact Par.bindType (fun t => Par.pure _ _)
  case refine_11 => rw [List.append_nil]; exact Par.bindType (fun t => Par.pure _ _)
  case refine_12 ih cs => exact Par.bindType (fun t => Par.bind (ih.2 cs _ rfl h) (fun b => Par.pure _ _))
  case refine_13 e i d ihe ihi ihd cs =>
    refine Par.bind (ihe cs _ rfl (by omega)) (fun b => ?_)
    refine Par.bind (ihi (cs ++ constsOf e) _ (by simp) (by omega)) (fun b => ?_)
    refine Par.bind (ihd.2 (cs ++ constsOf e ++ constsOf i) _ (by simp; omega) (by omega)) (fun b => ?_)
    exact Par.ofEq (Par.pure _ _) rfl (by simp)
  case refine_14 e i j d ihe ihi ihj ihd cs =>
    refine Par.bind (ihe cs _ rfl (by omega)) (fun b => ?_)
    refine Par.bind (ihi (cs ++ constsOf e) _ (by simp) (by omega)) (fun b => ?_)
    refine Par.bind (ihj (cs ++ constsOf e ++ constsOf i) _ (by simp; omega) (by omega)) (fun b => ?_)
    refine Par.bind (ihd.2 (cs ++ constsOf e ++ constsOf i ++ constsOf j) _ (by simp; omega) (by omega)) (fun b => ?_)
    exact Par.ofEq (Par.pure _ _) rfl (by simp)
  case refine_15 ih cs =>
    rw [segRs_length]
    exact Par.bindType (fun t => Par.bind (ih.1 cs _ rfl h) (fun b => Par.pure _ _))
  case refine_16 ih cs =>
    rw [segRs_length]
    exact Par.bind (ih.1 cs _ rfl h) (fun b => Par.pure _ _)
  case refine_17 ih cs =>
    rw [segRs_length]
    exact Par.bind (ih.1 cs _ rfl h) (fun b => Par.pure _ _)
  case refine_18 ih cs => exact Par.bindType (fun t => Par.bind (ih cs _ rfl h) (fun b => Par.pure _ _))
  case refine_19 e args ihe iha cs =>
    rw [segRs_length]
    refine Par.bind (ihe cs _ rfl (by omega)) (fun b => ?_)
    refine Par.bind (iha.1 (cs ++ constsOf e) _ (by simp) (by omega)) (fun b => ?_)
    exact Par.ofEq (Par.pure _ _) rfl (by simp)
  case refine_20 items r ihi ihr cs =>
    rw [segRs_length]
    refine Par.bind (ihi.1 cs _ rfl (by omega)) (fun b => ?_)
    refine Par.bind (ihr (cs ++ constsOfs items) _ (by simp) (by omega)) (fun b => ?_)
    exact Par.ofEq (Par.pure _ _) rfl (by simp)
  case refine_21 ih cs => exact Par.bind (ih cs _ rfl h) (fun b => Par.pure _ _)
  case refine_22 ti mi sig obj args iho iha cs =>
    rw [segRs_length]
    refine Par.bind (iho cs _ rfl (by omega)) (fun b => ?_)
    refine Par.bind (iha.1 (cs ++ constsOf obj) _ (by simp) (by omega)) (fun b => ?_)
    exact Par.ofEq (Par.pure _ _) rfl (by simp)
  case refine_23 ih cs => exact Par.bind (ih cs _ rfl h) (fun b => Par.pure _ _)

theorem tpe_segR (e : Expr G B) : ∀ n, tpe (segR e n) = tpe e := by
  refine Expr.rec (motive_1 := fun e => ∀ n, tpe (segR e n) = tpe e)
    (motive_2 := fun l => (∀ n, tpes (segRs l n) = tpes l) ∧ ∀ n, tpes (segOpt l n) = tpes l)
    ?_ ?_ ?_ ?_ ?_ ?_ ?_ ?_ ?_ ?_ ?_ ?_ ?_ ?_ ?_ ?_ ?_ ?_ ?_ ?_ ?_ ?_ ?_ ?_ ?_ e
  case refine_6 =>
    intro k l r ihl ihr n
    rw [segR]
    split
    · rfl
    · rw [tpe, tpe, ihl]
  all_goals intros
  all_goals simp_all [segR, segRs, segOpt, tpe, tpes]

theorem tpes_segRs : ∀ (l : List (Expr G B)) n, tpes (segRs l n) = tpes l
  | [], _ => rfl
  | e :: l, n => by rw [segRs, tpes, tpes, tpe_segR, tpes_segRs l]

theorem tpes_segOpt : ∀ (l : List (Expr G B)) n, tpes (segOpt l n) = tpes l
  | [], _ => rfl
  | e :: l, n => by rw [segOpt, tpes, tpes, tpe_segR]

theorem segOpt_length : ∀ (l : List (Expr G B)) (n : Nat), (segOpt l n).length = l.length
  | [], _ => rfl
  | e :: l, n => by simp only [segOpt, List.length_cons]

theorem after_segR (e : Expr G B) : ∀ n st, after (segR e n) st = after e st := by
  refine Expr.rec (motive_1 := fun e => ∀ n st, after (segR e n) st = after e st)
    (motive_2 := fun l => (∀ n st, afterAll (segRs l n) st = afterAll l st) ∧
      ∀ n st, afterAll (segOpt l n) st = afterAll l st)
    ?_ ?_ ?_ ?_ ?_ ?_ ?_ ?_ ?_ ?_ ?_ ?_ ?_ ?_ ?_ ?_ ?_ ?_ ?_ ?_ ?_ ?_ ?_ ?_ ?_ e
  case refine_6 =>
    intro k l r ihl ihr n st
    rw [segR]
    split
    · rfl
    · rw [after, after, ihl, ihr]
  all_goals intros
  all_goals simp_all [segR, segRs, segOpt, after, afterAll, tpe_segR]

theorem afterAll_segRs : ∀ (l : List (Expr G B)) n st, afterAll (segRs l n) st = afterAll l st
  | [], _, _ => rfl
  | e :: l, n, st => by rw [segRs, afterAll, afterAll, after_segR, afterAll_segRs l]

theorem isBools_segR (e : Expr G B) (n : Nat) : isBools (segR e n) = isBools e := by
  cases e <;> try rfl
  rw [segR]
  split <;> rfl

/-- `l` is the part of `C` that starts at `n`. -/
def Slice {α : Type} (C : List α) (n : Nat) (l : List α) : Prop := ∃ pre post, C = pre ++ l ++ post ∧ pre.length = n

theorem Slice.left {α : Type} {C : List α} {n : Nat} {l r : List α} (h : Slice C n (l ++ r)) : Slice C n l := by
  obtain ⟨pre, post, h1, h2⟩ := h
  exact ⟨pre, r ++ post, by simp [h1], h2⟩

theorem Slice.right {α : Type} {C : List α} {n : Nat} {l r : List α} (h : Slice C n (l ++ r)) :
    Slice C (n + l.length) r := by
  obtain ⟨pre, post, h1, h2⟩ := h
  exact ⟨pre ++ l, post, by simp [h1], by simp [h2]⟩

theorem Slice.get {α : Type} {C : List α} {n : Nat} {c : α} (h : Slice C n [c]) : C[n]? = some c := by
  obtain ⟨pre, post, rfl, rfl⟩ := h
  simp

theorem Slice.bound {α : Type} {C : List α} {n : Nat} {l : List α} (h : Slice C n l) : n + l.length ≤ C.length := by
  obtain ⟨pre, post, rfl, rfl⟩ := h
  simp

/-- The segregated expression is good for a reader that holds the constants. -/
theorem good_segR {utf8 : Bytes → Bool} {bwf : B → Prop} {R0 R : Reader G B} (hm : R.methods = R0.methods)
    (hC : R.consts.length ≤ 2 ^ 32) (e : Expr G B) :
    ∀ st n, NoPh e → Good utf8 bwf R0 e st → Slice R.consts n (constsOf e) → Good utf8 bwf R (segR e n) st := by
  refine Expr.rec
    (motive_1 := fun e => ∀ st n, NoPh e → Good utf8 bwf R0 e st → Slice R.consts n (constsOf e) →
      Good utf8 bwf R (segR e n) st)
    (motive_2 := fun l => (∀ st n, NoPhs l → GoodAll utf8 bwf R0 l st → Slice R.consts n (constsOfs l) →
      GoodAll utf8 bwf R (segRs l n) st) ∧
      (∀ st n, NoPhs l → l.length ≤ 1 → GoodAll utf8 bwf R0 l st → Slice R.consts n (constsOfOpt l) →
      GoodAll utf8 bwf R (segOpt l n) st))
    ?_ ?_ ?_ ?_ ?_ ?_ ?_ ?_ ?_ ?_ ?_ ?_ ?_ ?_ ?_ ?_ ?_ ?_ ?_ ?_ ?_ ?_ ?_ ?_ ?_ e
  case refine_1 =>
    intro c st n _ h hs
    rw [constsOf] at hs
    have := hs.bound
    rw [segR, Good, BitVec.toNat_ofNat, Nat.mod_eq_of_lt (by simp at this; omega)]
    exact ⟨c, hs.get, rfl⟩
  case refine_6 =>
    intro k l r ihl ihr st n hp h hs
    rw [NoPh] at hp
    rw [Good] at h
    rw [constsOf] at hs
    rw [segR]
    split
    · rename_i hc
      simp only [Bool.and_eq_true, Option.isSome_iff_exists] at hc
      obtain ⟨⟨x, hx⟩, ⟨y, hy⟩⟩ := hc
      have el := boolConst?_some hx
      have er := boolConst?_some hy
      subst el er
      simp only [Good] at h ⊢
      exact h
    · rename_i hc
      rw [if_neg hc] at hs
      rw [Good, isBools_segR, after_segR]
      exact ⟨h.1, ihl _ _ hp.1 h.2.1 hs.left, ihr _ _ hp.2 h.2.2 hs.right⟩
  case refine_24 => exact ⟨fun _ _ _ _ _ => trivial, fun _ _ _ _ _ _ => trivial⟩
  case refine_25 =>
    intro e l ihe ihl
    refine ⟨fun st n hp h hs => ?_, fun st n hp hlen h hs => ?_⟩
    · rw [NoPhs] at hp
      rw [GoodAll] at h
      rw [constsOfs] at hs
      rw [segRs, GoodAll, after_segR]
      exact ⟨ihe _ _ hp.1 h.1 hs.left, ihl.1 _ _ hp.2 h.2 hs.right⟩
    · rw [NoPhs] at hp
      rw [GoodAll] at h
      rw [constsOfOpt] at hs
      have : l = [] := by
        cases l with
        | nil => rfl
        | cons a b => simp at hlen
      subst this
      rw [segOpt, GoodAll, GoodAll]
      exact ⟨ihe _ _ hp.1 h.1 hs, trivial⟩
  all_goals intros
  all_goals rename_i hp h hs
  all_goals rw [NoPh] at hp
  all_goals rw [Good] at h
  all_goals rw [constsOf] at hs
  all_goals rw [segR, Good]
  all_goals try simp only [tpe_segR, tpes_segRs, tpes_segOpt, after_segR, afterAll_segRs, segRs_length, segOpt_length, hm]
  case refine_2 => exact hp.elim
  case refine_3 => exact h
  case refine_4 => exact h
  case refine_5 ih _ _ => exact ⟨h.1, h.2.1, ih.1 _ _ hp h.2.2 hs⟩
  case refine_7 ih _ _ => exact ⟨h.1, ih _ _ hp h.2 hs⟩
  case refine_8 ih _ _ => exact ⟨h.1, h.2.1, ih _ _ hp h.2.2 hs⟩
  case refine_9 ih _ _ => exact ⟨h.1, ih _ _ hp h.2 hs⟩
  case refine_10 => exact h
  case refine_11 => exact h
  case refine_12 ih _ _ => exact ⟨h.1, h.2.1, ih.2 _ _ hp h.2.1 h.2.2 hs⟩
  case refine_13 ihe ihi ihd _ _ =>
    obtain ⟨h1, h2, h3, h4, h5⟩ := h
    refine ⟨h1, h2, ihe _ _ hp.1 h3 hs.left.left, ihi _ _ hp.2.1 h4 hs.left.right, ihd.2 _ _ hp.2.2 h2 h5 ?_⟩
    have := hs.right
    rwa [List.length_append, ← Nat.add_assoc] at this
  case refine_14 ihe ihi ihj ihd _ _ =>
    obtain ⟨h1, h2, h3, h4, h5, h6⟩ := h
    refine ⟨h1, h2, ihe _ _ hp.1 h3 hs.left.left.left, ihi _ _ hp.2.1 h4 hs.left.left.right, ihj _ _ hp.2.2.1 h5 ?_,
      ihd.2 _ _ hp.2.2.2 h2 h6 ?_⟩
    · have := hs.left.right
      rwa [List.length_append, ← Nat.add_assoc] at this
    · have := hs.right
      rwa [List.length_append, List.length_append, ← Nat.add_assoc, ← Nat.add_assoc] at this
  case refine_15 ih _ _ => exact ⟨h.1, h.2.1, ih.1 _ _ hp h.2.2 hs⟩
  case refine_16 ih _ _ => exact ⟨h.1, h.2.1, ih.1 _ _ hp h.2.2 hs⟩
  case refine_17 ih _ _ => exact ⟨h.1, h.2.1, h.2.2.1, ih.1 _ _ hp h.2.2.2 hs⟩
  case refine_18 ih _ _ => exact ⟨h.1, h.2.1, ih _ _ hp h.2.2 hs⟩
  case refine_19 ihe iha _ _ => exact ⟨h.1, h.2.1, ihe _ _ hp.1 h.2.2.1 hs.left, iha.1 _ _ hp.2 h.2.2.2 hs.right⟩
  case refine_20 ihi ihr _ _ => exact ⟨h.1, ihi.1 _ _ hp.1 h.2.1 hs.left, ihr _ _ hp.2 h.2.2 hs.right⟩
  case refine_21 ih _ _ => exact ih _ _ hp h hs
  case refine_22 iho iha _ _ => exact ⟨h.1, h.2.1, iho _ _ hp.1 h.2.2.1 hs.left, iha.1 _ _ hp.2 h.2.2.2 hs.right⟩
  case refine_23 ih _ _ => exact ⟨h.1, ih _ _ hp h.2 hs⟩

/-- Substituting the constants into the segregated expression gives the expression. -/
theorem subst_segR {utf8 : Bytes → Bool} {bwf : B → Prop} {R0 : Reader G B} {C : List (Constant G B)}
    (hC : C.length ≤ 2 ^ 32) (e : Expr G B) :
    ∀ st n, NoPh e → Good utf8 bwf R0 e st → Slice C n (constsOf e) → substAll C (segR e n) = e := by
  unfold substAll
  refine Expr.rec
    (motive_1 := fun e => ∀ st n, NoPh e → Good utf8 bwf R0 e st → Slice C n (constsOf e) →
      mapPh (fun id t => match C[id.toNat]? with | some c => .const c | none => .placeholder id t) (segR e n) = e)
    (motive_2 := fun l => (∀ st n, NoPhs l → GoodAll utf8 bwf R0 l st → Slice C n (constsOfs l) →
      mapPhs (fun id t => match C[id.toNat]? with | some c => .const c | none => .placeholder id t) (segRs l n) = l) ∧
      (∀ st n, NoPhs l → l.length ≤ 1 → GoodAll utf8 bwf R0 l st → Slice C n (constsOfOpt l) →
      mapPhs (fun id t => match C[id.toNat]? with | some c => .const c | none => .placeholder id t) (segOpt l n) = l))
    ?_ ?_ ?_ ?_ ?_ ?_ ?_ ?_ ?_ ?_ ?_ ?_ ?_ ?_ ?_ ?_ ?_ ?_ ?_ ?_ ?_ ?_ ?_ ?_ ?_ e
  case refine_1 =>
    intro c st n _ h hs
    rw [constsOf] at hs
    have := hs.bound
    rw [segR, mapPh, BitVec.toNat_ofNat, Nat.mod_eq_of_lt (by simp at this; omega), hs.get]
  case refine_6 =>
    intro k l r ihl ihr st n hp h hs
    rw [NoPh] at hp
    rw [Good] at h
    rw [constsOf] at hs
    rw [segR]
    split
    · rename_i hc
      simp only [Bool.and_eq_true, Option.isSome_iff_exists] at hc
      obtain ⟨⟨x, hx⟩, ⟨y, hy⟩⟩ := hc
      have el := boolConst?_some hx
      have er := boolConst?_some hy
      subst el er
      rfl
    · rename_i hc
      rw [if_neg hc] at hs
      rw [mapPh, ihl _ _ hp.1 h.2.1 hs.left, ihr _ _ hp.2 h.2.2 hs.right]
  case refine_24 => exact ⟨fun _ _ _ _ _ => rfl, fun _ _ _ _ _ _ => rfl⟩
  case refine_25 =>
    intro e l ihe ihl
    refine ⟨fun st n hp h hs => ?_, fun st n hp hlen h hs => ?_⟩
    · rw [NoPhs] at hp
      rw [GoodAll] at h
      rw [constsOfs] at hs
      rw [segRs, mapPhs, ihe _ _ hp.1 h.1 hs.left, ihl.1 _ _ hp.2 h.2 hs.right]
    · rw [NoPhs] at hp
      rw [GoodAll] at h
      rw [constsOfOpt] at hs
      have : l = [] := by
        cases l with
        | nil => rfl
        | cons a b => simp at hlen
      subst this
      rw [segOpt, mapPhs, ihe _ _ hp.1 h.1 hs, mapPhs]
  all_goals intros
  all_goals rename_i hp h hs
  all_goals rw [NoPh] at hp
  all_goals rw [Good] at h
  all_goals rw [constsOf] at hs
  all_goals rw [segR, mapPh]
  case refine_2 => exact hp.elim
  case refine_5 ih _ _ => rw [ih.1 _ _ hp h.2.2 hs]
  case refine_7 ih _ _ => rw [ih _ _ hp h.2 hs]
  case refine_8 ih _ _ => rw [ih _ _ hp h.2.2 hs]
  case refine_9 ih _ _ => rw [ih _ _ hp h.2 hs]
  case refine_12 ih _ _ => rw [ih.2 _ _ hp h.2.1 h.2.2 hs]
  case refine_13 ihe ihi ihd _ _ =>
    obtain ⟨h1, h2, h3, h4, h5⟩ := h
    rw [ihe _ _ hp.1 h3 hs.left.left, ihi _ _ hp.2.1 h4 hs.left.right, ihd.2 _ _ hp.2.2 h2 h5 ?_]
    have := hs.right
    rwa [List.length_append, ← Nat.add_assoc] at this
  case refine_14 ihe ihi ihj ihd _ _ =>
    obtain ⟨h1, h2, h3, h4, h5, h6⟩ := h
    rw [ihe _ _ hp.1 h3 hs.left.left.left, ihi _ _ hp.2.1 h4 hs.left.left.right, ihj _ _ hp.2.2.1 h5 ?_,
      ihd.2 _ _ hp.2.2.2 h2 h6 ?_]
    · have := hs.right
      rwa [List.length_append, List.length_append, ← Nat.add_assoc, ← Nat.add_assoc] at this
    · have := hs.left.right
      rwa [List.length_append, ← Nat.add_assoc] at this
  case refine_15 ih _ _ => rw [ih.1 _ _ hp h.2.2 hs]
  case refine_16 ih _ _ => rw [ih.1 _ _ hp h.2.2 hs]
  case refine_17 ih _ _ => rw [ih.1 _ _ hp h.2.2.2 hs]
  case refine_18 ih _ _ => rw [ih _ _ hp h.2.2 hs]
  case refine_19 ihe iha _ _ => rw [ihe _ _ hp.1 h.2.2.1 hs.left, iha.1 _ _ hp.2 h.2.2.2 hs.right]
  case refine_20 ihi ihr _ _ => rw [ihi.1 _ _ hp.1 h.2.1 hs.left, ihr _ _ hp.2 h.2.2 hs.right]
  case refine_21 ih _ _ => rw [ih _ _ hp h hs]
  case refine_22 iho iha _ _ => rw [iho _ _ hp.1 h.2.2.1 hs.left, iha.1 _ _ hp.2 h.2.2.2 hs.right]
  case refine_23 ih _ _ => rw [ih _ _ hp h.2 hs]

theorem noConst_segR {utf8 : Bytes → Bool} {bwf : B → Prop} {R0 : Reader G B} (e : Expr G B) :
    ∀ st n, Good utf8 bwf R0 e st → NoConst (segR e n) := by
  refine Expr.rec
    (motive_1 := fun e => ∀ st n, Good utf8 bwf R0 e st → NoConst (segR e n))
    (motive_2 := fun l => (∀ st n, GoodAll utf8 bwf R0 l st → NoConsts (segRs l n)) ∧
      (∀ st n, GoodAll utf8 bwf R0 l st → l.length ≤ 1 → NoConsts (segOpt l n)))
    ?_ ?_ ?_ ?_ ?_ ?_ ?_ ?_ ?_ ?_ ?_ ?_ ?_ ?_ ?_ ?_ ?_ ?_ ?_ ?_ ?_ ?_ ?_ ?_ ?_ e
  case refine_6 =>
    intro k l r ihl ihr st n h
    rw [Good] at h
    rw [segR]
    split
    · rename_i hc
      simp only [Bool.and_eq_true, Option.isSome_iff_ne_none] at hc
      rw [NoConst]
      exact Or.inl hc
    · rw [NoConst]
      exact Or.inr ⟨ihl _ _ h.2.1, ihr _ _ h.2.2⟩
  case refine_24 => exact ⟨fun _ _ _ => trivial, fun _ _ _ _ => trivial⟩
  case refine_25 =>
    intro e l ihe ihl
    refine ⟨fun st n h => ?_, fun st n h hlen => ?_⟩
    · rw [GoodAll] at h
      rw [segRs, NoConsts]
      exact ⟨ihe _ _ h.1, ihl.1 _ _ h.2⟩
    · rw [GoodAll] at h
      have : l = [] := by
        cases l with
        | nil => rfl
        | cons a b => simp at hlen
      subst this
      rw [segOpt, NoConsts]
      exact ⟨ihe _ _ h.1, trivial⟩
  all_goals intros
  all_goals rename_i h
  all_goals rw [Good] at h
  all_goals rw [segR, NoConst]
  all_goals try trivial
  case refine_5 ih _ _ => exact ih.1 _ _ h.2.2
  case refine_7 ih _ _ => exact ih _ _ h.2
  case refine_8 ih _ _ => exact ih _ _ h.2.2
  case refine_9 ih _ _ => exact ih _ _ h.2
  case refine_12 ih _ _ => exact ih.2 _ _ h.2.2 h.2.1
  case refine_13 ihe ihi ihd _ _ =>
    exact ⟨ihe _ _ h.2.2.1, ihi _ _ h.2.2.2.1, ihd.2 _ _ h.2.2.2.2 h.2.1⟩
  case refine_14 ihe ihi ihj ihd _ _ =>
    exact ⟨ihe _ _ h.2.2.1, ihi _ _ h.2.2.2.1, ihj _ _ h.2.2.2.2.1, ihd.2 _ _ h.2.2.2.2.2 h.2.1⟩
  case refine_15 ih _ _ => exact ih.1 _ _ h.2.2
  case refine_16 ih _ _ => exact ih.1 _ _ h.2.2
  case refine_17 ih _ _ => exact ih.1 _ _ h.2.2.2
  case refine_18 ih _ _ => exact ih _ _ h.2.2
  case refine_19 ihe iha _ _ => exact ⟨ihe _ _ h.2.2.1, iha.1 _ _ h.2.2.2⟩
  case refine_20 ihi ihr _ _ => exact ⟨ihi.1 _ _ h.2.1, ihr _ _ h.2.2⟩
  case refine_21 ih _ _ => exact ih _ _ h
  case refine_22 iho iha _ _ => exact ⟨iho _ _ h.2.2.1, iha.1 _ _ h.2.2.2⟩
  case refine_23 ih _ _ => exact ih _ _ h.2

/-- An expression without constants is its own segregation. -/
theorem segR_noConst (e : Expr G B) : NoConst e → (∀ n, segR e n = e) ∧ constsOf e = [] := by
  refine Expr.rec
    (motive_1 := fun e => NoConst e → (∀ n, segR e n = e) ∧ constsOf e = [])
    (motive_2 := fun l => NoConsts l → (∀ n, segRs l n = l) ∧ constsOfs l = [] ∧ (∀ n, segOpt l n = l) ∧ constsOfOpt l = [])
    ?_ ?_ ?_ ?_ ?_ ?_ ?_ ?_ ?_ ?_ ?_ ?_ ?_ ?_ ?_ ?_ ?_ ?_ ?_ ?_ ?_ ?_ ?_ ?_ ?_ e
  case refine_6 =>
    intro k l r ihl ihr h
    rw [NoConst] at h
    by_cases hc : ((boolConst? l).isSome && (boolConst? r).isSome) = true
    · refine ⟨fun n => ?_, ?_⟩
      · rw [segR, if_pos hc]
      · rw [constsOf, if_pos hc]
    · have h' : NoConst l ∧ NoConst r := by
        rcases h with h | h
        · exfalso; apply hc
          simp only [Bool.and_eq_true, Option.isSome_iff_ne_none]
          exact h
        · exact h
      refine ⟨fun n => ?_, ?_⟩
      · rw [segR, if_neg hc, (ihl h'.1).1, (ihr h'.2).1]
      · rw [constsOf, if_neg hc, (ihl h'.1).2, (ihr h'.2).2]; rfl
  all_goals intros
  all_goals simp_all [NoConst, NoConsts, segR, segRs, segOpt, constsOf, constsOfs, constsOfOpt]

end Verif
