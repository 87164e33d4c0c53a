import Verif.Proofs.ScriptDirect
import Verif.Proofs.ScriptLex

/-!
# The parser accepts the grammar and builds its trees
-/

set_option linter.unusedSimpArgs false
set_option linter.unusedVariables false

namespace Verif
namespace Script
open ScriptSpec

/-! ## More budget changes nothing -/

theorem d_mono (n : Nat) :
    (∀ min ts d, dExpr n min ts = some d → dExpr (n + 1) min ts = some d) ∧
    (∀ min g e ts d, dLoop n min g e ts = some d → dLoop (n + 1) min g e ts = some d) ∧
    (∀ ts d, dLhs n ts = some d → dLhs (n + 1) ts = some d) ∧
    (∀ t r d, dPrefix n t r = some d → dPrefix (n + 1) t r = some d) ∧
    (∀ t r d, dParen n t r = some d → dParen (n + 1) t r = some d) := by
  induction n with
  | zero =>
    refine ⟨?_, ?_, ?_, ?_, ?_⟩
    · intro min ts d h; simp [dExpr] at h
    · intro min g e ts d h; simp [dLoop] at h
    · intro ts d h; simp [dLhs] at h
    · intro t r d h; simp [dPrefix] at h
    · intro t r d h; simp [dParen] at h
  | succ n ih =>
    obtain ⟨ihE, ihL, ihH, ihP, ihQ⟩ := ih
    refine ⟨?_, ?_, ?_, ?_, ?_⟩
    · intro min ts d h
      rw [dExpr] at h ⊢
      cases hl : dLhs n ts with
      | none => rw [hl] at h; simp at h
      | some d1 =>
        rw [hl] at h
        rw [ihH _ _ hl]
        obtain ⟨g1, f1, e1, r1⟩ := d1
        cases g1 with
        | none => exact h
        | some g => exact ihL _ _ _ _ _ h
    · intro min g e ts d h
      rw [dLoop.eq_def] at h ⊢
      simp only at h ⊢
      cases ts with
      | nil => exact h
      | cons t r =>
        simp only at h ⊢
        cases ho : opOfKind t.kind with
        | none => simp only [ho] at h ⊢; exact h
        | some op =>
          simp only [ho] at h ⊢
          split at h
          · rename_i hm
            rw [if_pos hm]; exact h
          · rename_i hm
            rw [if_neg hm]
            cases hx : dExpr n op.power.2 r with
            | none => rw [hx] at h; simp at h
            | some d1 =>
              rw [hx] at h
              rw [ihE _ _ _ hx]
              obtain ⟨g1, f1, e1, r1⟩ := d1
              simp only at h ⊢
              split at h
              · rename_i hg
                rw [if_pos hg]
                exact ihL _ _ _ _ _ h
              · rename_i hg
                rw [if_neg hg]
                exact h
    · intro ts d h
      rw [dLhs.eq_def] at h ⊢
      simp only at h ⊢
      cases ts with
      | nil => exact h
      | cons t r =>
        simp only at h ⊢
        split at h
        · rename_i h1
          rw [if_pos h1]; exact h
        rename_i h1
        rw [if_neg h1]
        split at h
        · rename_i h2
          rw [if_pos h2]; exact ihP _ _ _ h
        rename_i h2
        rw [if_neg h2]
        split at h
        · rename_i h3
          rw [if_pos h3]; exact ihQ _ _ _ h
        rename_i h3
        rw [if_neg h3]; exact h
    · intro t r d h
      rw [dPrefix] at h ⊢
      cases hx : dExpr n negPower r with
      | none => rw [hx] at h; simp at h
      | some d1 =>
        rw [hx] at h
        rw [ihE _ _ _ hx]
        exact h
    · intro t r d h
      rw [dParen] at h ⊢
      cases hx : dExpr n 0 r with
      | none => rw [hx] at h; simp at h
      | some d1 =>
        rw [hx] at h
        rw [ihE _ _ _ hx]
        exact h

theorem dExpr_le {n m : Nat} (h : n ≤ m) {min : Nat} {ts : List Tok} {d : DRes} (hd : dExpr n min ts = some d) :
    dExpr m min ts = some d := by
  induction h with
  | refl => exact hd
  | step _ ih => exact (d_mono _).1 _ _ _ ih

theorem dLoop_le {n m : Nat} (h : n ≤ m) {min e : Nat} {g : Green} {ts : List Tok} {d : DRes} (hd : dLoop n min g e ts = some d) :
    dLoop m min g e ts = some d := by
  induction h with
  | refl => exact hd
  | step _ ih => exact (d_mono _).2.1 _ _ _ _ _ ih

theorem dLhs_le {n m : Nat} (h : n ≤ m) {ts : List Tok} {d : DRes} (hd : dLhs n ts = some d) : dLhs m ts = some d := by
  induction h with
  | refl => exact hd
  | step _ ih => exact (d_mono _).2.2.1 _ _ ih

/-! ## From the parser to the grammar -/

/-- Kinds and texts. -/
abbrev keys (ts : List Tok) : List (TokKind × List Char) := ts.map Tok.key

/-- The tokens have the texts of their kinds. -/
def Genuine (ts : List Tok) : Prop := ∀ t ∈ ts, t.kind ≠ .error → Lexeme t.kind t.text

/-- The next operator, if there is one, is not taken at strength `min`. -/
def Stop (min : Nat) (ts : List Tok) : Prop := ∀ t r op, ts = t :: r → opOfKind t.kind = some op → op.power.1 < min

/-- The next operator, if there is one, may have `x` on its left. -/
def FitsLeft (x : Ex) (ts : List Tok) : Prop := ∀ t r op, ts = t :: r → opOfKind t.kind = some op → prec op ≤ x.level

theorem power_prec (op : BOp) : op.power = (2 * prec op - 1, 2 * prec op) := by cases op <;> rfl
theorem prec_pos (op : BOp) : 1 ≤ prec op ∧ prec op ≤ 2 := by cases op <;> decide

theorem opOfKind_key {t : Tok} {op : BOp} (h : opOfKind t.kind = some op) (hl : t.kind ≠ .error → Lexeme t.kind t.text) :
    t.key = opWord op := by
  obtain ⟨k, tx, st⟩ := t
  simp only at h hl
  cases k <;> simp [opOfKind] at h <;> subst h <;> have := hl (by simp) <;> simp [Lexeme] at this <;> subst this <;> rfl

theorem genuine_tail {t : Tok} {r : List Tok} (h : Genuine (t :: r)) : Genuine r := fun x hx => h x (by simp [hx])

theorem genuine_append {a b : List Tok} (h : Genuine (a ++ b)) : Genuine b := fun x hx => h x (by simp [hx])

theorem bin_tree (op : BOp) (l r : Ex) : Green.node .infixExpr (l.tree :: leaf (opWord op) :: [r.tree]) = (Ex.bin op l r).tree := rfl

theorem dLoop_errs (n min : Nat) (g : Green) (e : Nat) (ts : List Tok) (d : DRes) (h : dLoop n min g e ts = some d) :
    e ≤ d.2.2.1 ∧ d.1.isSome = true := by
  induction n generalizing g e ts with
  | zero => simp [dLoop] at h
  | succ n ih =>
    rw [dLoop.eq_def] at h
    simp only at h
    cases ts with
    | nil =>
      simp only [Option.some.injEq] at h
      subst h; exact ⟨Nat.le_refl _, rfl⟩
    | cons t r =>
      simp only at h
      cases ho : opOfKind t.kind with
      | none =>
        simp only [ho, Option.some.injEq] at h
        subst h; exact ⟨Nat.le_refl _, rfl⟩
      | some op =>
        simp only [ho] at h
        split at h
        · simp only [Option.some.injEq] at h
          subst h; exact ⟨Nat.le_refl _, rfl⟩
        · cases hx : dExpr n op.power.2 r with
          | none => rw [hx] at h; simp at h
          | some d1 =>
            rw [hx] at h
            obtain ⟨g1, f1, e1, r1⟩ := d1
            simp only at h
            split at h
            · have := ih _ _ _ h
              exact ⟨by omega, this.2⟩
            · simp only [Option.some.injEq] at h
              subst h; exact ⟨Nat.le_add_right _ _, rfl⟩

theorem dLhs_none (n : Nat) (ts : List Tok) (f : List Green) (e : Nat) (r : List Tok) (h : dLhs n ts = some (none, f, e, r)) :
    e = 1 := by
  cases n with
  | zero => simp [dLhs] at h
  | succ n =>
    rw [dLhs.eq_def] at h
    simp only at h
    cases ts with
    | nil => simp at h; exact h.2.1.symm
    | cons t r' =>
      simp only at h
      split at h
      · simp at h
      split at h
      · cases n with
        | zero => simp [dPrefix] at h
        | succ n =>
          rw [dPrefix] at h
          split at h <;> simp at h
      split at h
      · cases n with
        | zero => simp [dParen] at h
        | succ n =>
          rw [dParen] at h
          split at h <;> simp at h
      simp at h
      exact h.2.1.symm

theorem dExpr_none (n min : Nat) (ts : List Tok) (f : List Green) (e : Nat) (r : List Tok) (h : dExpr n min ts = some (none, f, e, r)) :
    e = 1 := by
  cases n with
  | zero => simp [dExpr] at h
  | succ n =>
    rw [dExpr] at h
    cases hl : dLhs n ts with
    | none => rw [hl] at h; simp at h
    | some d1 =>
      rw [hl] at h
      obtain ⟨g1, f1, e1, r1⟩ := d1
      cases g1 with
      | none =>
        simp only [Option.some.injEq, Prod.mk.injEq, true_and] at h
        obtain ⟨rfl, rfl, rfl⟩ := h
        exact dLhs_none _ _ _ _ _ hl
      | some g =>
        have := (dLoop_errs _ _ _ _ _ _ h).2
        simp at this

theorem dExpect_zero {k : TokKind} {ts : List Tok} (h : (dExpect k ts).2.1 = 0) :
    ∃ t r, ts = t :: r ∧ t.kind = k ∧ dExpect k ts = ([leaf t.key], 0, r) := by
  cases ts with
  | nil => simp [dExpect] at h
  | cons t r =>
    simp only [dExpect] at h
    split at h
    · rename_i hk
      exact ⟨t, r, rfl, hk, by simp [dExpect, hk]⟩
    · simp at h

theorem key_of {t : Tok} {k : TokKind} {s : List Char} (hk : t.kind = k) (hg : t.kind ≠ .error → Lexeme t.kind t.text)
    (hne : k ≠ .error) (hs : ∀ u, Lexeme k u → u = s) : t.key = (k, s) := by
  subst hk
  show (t.kind, t.text) = _
  rw [hs _ (hg hne)]

theorem d_sound (n : Nat) :
    (∀ min ts g f r, min ≤ 5 → Genuine ts → dExpr n min ts = some (g, f, 0, r) →
      ∃ (x : Ex) (us : List Tok), g = some x.tree ∧ f = [] ∧ ts = us ++ r ∧ keys us = x.words ∧ x.Ok ∧ min ≤ 2 * x.level - 1 ∧
        Stop min r) ∧
    (∀ min (x : Ex) ts g f r, Genuine ts → x.Ok → min ≤ 2 * x.level - 1 → FitsLeft x ts →
      dLoop n min x.tree 0 ts = some (g, f, 0, r) →
      ∃ (y : Ex) (us : List Tok), g = some y.tree ∧ f = [] ∧ ts = us ++ r ∧ x.words ++ keys us = y.words ∧ y.Ok ∧
        min ≤ 2 * y.level - 1 ∧ Stop min r) ∧
    (∀ ts g f r, Genuine ts → dLhs n ts = some (g, f, 0, r) →
      ∃ (x : Ex) (us : List Tok), g = some x.tree ∧ f = [] ∧ ts = us ++ r ∧ keys us = x.words ∧ x.Ok ∧ x.level = 3) ∧
    (∀ t ts g f r, t.key = (.minus, ['-']) → Genuine ts → dPrefix n t ts = some (g, f, 0, r) →
      ∃ (x : Ex) (us : List Tok), g = some x.tree ∧ f = [] ∧ ts = us ++ r ∧ t.key :: keys us = x.words ∧ x.Ok ∧ x.level = 3) ∧
    (∀ t ts g f r, t.key = (.lParen, ['(']) → Genuine ts → dParen n t ts = some (g, f, 0, r) →
      ∃ (x : Ex) (us : List Tok), g = some x.tree ∧ f = [] ∧ ts = us ++ r ∧ t.key :: keys us = x.words ∧ x.Ok ∧ x.level = 3) := by
  induction n with
  | zero =>
    refine ⟨?_, ?_, ?_, ?_, ?_⟩
    · intro min ts g f r _ _ h; simp [dExpr] at h
    · intro min x ts g f r _ _ _ _ h; simp [dLoop] at h
    · intro ts g f r _ h; simp [dLhs] at h
    · intro t ts g f r _ _ h; simp [dPrefix] at h
    · intro t ts g f r _ _ h; simp [dParen] at h
  | succ n ih =>
    obtain ⟨ihE, ihL, ihH, ihP, ihQ⟩ := ih
    refine ⟨?_, ?_, ?_, ?_, ?_⟩
    · intro min ts g f r hm hg h
      rw [dExpr] at h
      cases hl : dLhs n ts with
      | none => rw [hl] at h; simp at h
      | some d1 =>
        rw [hl] at h
        obtain ⟨g1, f1, e1, r1⟩ := d1
        cases g1 with
        | none =>
          simp only [Option.some.injEq, Prod.mk.injEq] at h
          obtain ⟨_, _, rfl, _⟩ := h
          have := dLhs_none _ _ _ _ _ hl
          omega
        | some g1 =>
          simp only at h
          have he : e1 = 0 := by
            have := (dLoop_errs _ _ _ _ _ _ h).1
            simpa using this
          subst he
          obtain ⟨x, us, a1, a2, a3, a4, a5, a6⟩ := ihH _ _ _ _ hg hl
          cases a1
          subst a3
          obtain ⟨y, vs, b1, b2, b3, b4, b5, b6, b7⟩ := ihL min x r1 g f r (genuine_append hg) a5 (by omega)
            (fun t r' op _ _ => by have := prec_pos op; omega) h
          subst b3
          refine ⟨y, us ++ vs, b1, b2, by simp, ?_, b5, b6, b7⟩
          rw [← b4, ← a4]; simp
    · intro min x ts g f r hg hx hm hf h
      rw [dLoop.eq_def] at h
      simp only at h
      cases ts with
      | nil =>
        simp only [Option.some.injEq, Prod.mk.injEq, true_and] at h
        obtain ⟨rfl, rfl, rfl⟩ := h
        exact ⟨x, [], rfl, rfl, rfl, by simp, hx, hm, fun t r op h => by cases h⟩
      | cons t r0 =>
        simp only at h
        cases ho : opOfKind t.kind with
        | none =>
          simp only [ho, Option.some.injEq, Prod.mk.injEq, true_and] at h
          obtain ⟨rfl, rfl, rfl⟩ := h
          refine ⟨x, [], rfl, rfl, rfl, by simp, hx, hm, ?_⟩
          intro t' r op h h'
          cases h
          rw [ho] at h'; cases h'
        | some op =>
          simp only [ho] at h
          split at h
          · rename_i hlt
            simp only [Option.some.injEq, Prod.mk.injEq, true_and] at h
            obtain ⟨rfl, rfl, rfl⟩ := h
            refine ⟨x, [], rfl, rfl, rfl, by simp, hx, hm, ?_⟩
            intro t' r op' h h'
            cases h
            rw [ho] at h'; cases h'
            exact hlt
          · rename_i hge
            cases he : dExpr n op.power.2 r0 with
            | none => rw [he] at h; simp at h
            | some d1 =>
              rw [he] at h
              obtain ⟨g1, f1, e1, r1⟩ := d1
              simp only [Nat.zero_add] at h
              have hp := prec_pos op
              rw [power_prec] at hge he
              simp only at hge he
              cases g1 with
              | none =>
                simp only [Option.isSome_none, Bool.false_eq_true, if_false, Option.some.injEq, Prod.mk.injEq] at h
                obtain ⟨_, _, rfl, _⟩ := h
                have := dExpr_none _ _ _ _ _ _ he
                omega
              | some g1 =>
                simp only [Option.isSome_some, if_true] at h
                have he1 : e1 = 0 := by
                  have := (dLoop_errs _ _ _ _ _ _ h).1
                  simpa using this
                subst he1
                obtain ⟨y, us, a1, a2, a3, a4, a5, a6, a7⟩ := ihE _ _ _ _ _ (by omega) (genuine_tail hg) he
                cases a1
                subst a2 a3
                have hkey : t.key = opWord op := opOfKind_key ho (hg t (by simp))
                have hfit := hf t _ op rfl ho
                rw [hkey] at h
                simp only [Option.toList_some, List.append_nil] at h
                rw [bin_tree op x y] at h
                have hlev : (Ex.bin op x y).level = prec op := rfl
                obtain ⟨z, vs, b1, b2, b3, b4, b5, b6, b7⟩ := ihL min (.bin op x y) r1 g f r
                  (genuine_append (genuine_tail hg)) ⟨hx, a5, hfit, by omega⟩ (by rw [hlev]; omega)
                  (fun t' r' op' h1 h2 => by
                    have := a7 t' r' op' h1 h2
                    rw [power_prec] at this
                    simp only at this
                    have := prec_pos op'
                    rw [hlev]; omega) h
                subst b3
                refine ⟨z, t :: us ++ vs, b1, b2, by simp, ?_, b5, b6, b7⟩
                rw [← b4]
                simp [Ex.words, keys, a4, hkey]
    · intro ts g f r hg h
      rw [dLhs.eq_def] at h
      simp only at h
      cases ts with
      | nil => simp at h
      | cons t r0 =>
        simp only at h
        have ht := hg t (by simp)
        split at h
        · rename_i hk
          simp only [Option.some.injEq, Prod.mk.injEq, true_and] at h
          obtain ⟨rfl, rfl, rfl⟩ := h
          obtain ⟨k, tx, st⟩ := t
          simp only at hk
          rcases hk with rfl | rfl | rfl
          · exact ⟨.int tx, [_], rfl, rfl, rfl, rfl, trivial, rfl⟩
          · exact ⟨.long tx, [_], rfl, rfl, rfl, rfl, trivial, rfl⟩
          · exact ⟨.ident tx, [_], rfl, rfl, rfl, rfl, trivial, rfl⟩
        split at h
        · rename_i hk
          have hkey := key_of hk ht (by simp) (s := ['-']) (fun u hu => hu)
          obtain ⟨x, us, a1, a2, a3, a4, a5⟩ := ihP _ _ _ _ _ hkey (genuine_tail hg) h
          exact ⟨x, t :: us, a1, a2, by rw [a3]; rfl, a4, a5⟩
        split at h
        · rename_i hk
          have hkey := key_of hk ht (by simp) (s := ['(']) (fun u hu => hu)
          obtain ⟨x, us, a1, a2, a3, a4, a5⟩ := ihQ _ _ _ _ _ hkey (genuine_tail hg) h
          exact ⟨x, t :: us, a1, a2, by rw [a3]; rfl, a4, a5⟩
        simp at h
    · intro t ts g f r ht hg h
      rw [dPrefix] at h
      cases hx : dExpr n negPower ts with
      | none => rw [hx] at h; simp at h
      | some d1 =>
        rw [hx] at h
        obtain ⟨g1, f1, e1, r1⟩ := d1
        simp only [Option.some.injEq, Prod.mk.injEq] at h
        obtain ⟨rfl, rfl, rfl, rfl⟩ := h
        obtain ⟨x, us, a1, a2, a3, a4, a5, a6, a7⟩ := ihE _ _ _ _ _ (by simp [negPower]) hg hx
        subst a1 a2
        have hlev : x.level = 3 := by
          simp only [negPower] at a6
          cases x with
          | bin op l r' =>
            have := prec_pos op
            have e : (Ex.bin op l r').level = prec op := rfl
            rw [e] at a6
            omega
          | _ => rfl
        refine ⟨.neg x, us, ?_, rfl, a3, ?_, ⟨a5, hlev⟩, rfl⟩
        · rw [ht]; rfl
        · rw [ht, a4]; rfl
    · intro t ts g f r ht hg h
      rw [dParen] at h
      cases hx : dExpr n 0 ts with
      | none => rw [hx] at h; simp at h
      | some d1 =>
        rw [hx] at h
        obtain ⟨g1, f1, e1, r1⟩ := d1
        simp only [Option.some.injEq, Prod.mk.injEq] at h
        obtain ⟨rfl, rfl, h1, rfl⟩ := h
        have he1 : e1 = 0 := by omega
        have he2 : (dExpect .rParen r1).2.1 = 0 := by omega
        subst he1
        obtain ⟨x, us, a1, a2, a3, a4, a5, a6, a7⟩ := ihE _ _ _ _ _ (by omega) hg hx
        subst a1 a2 a3
        obtain ⟨q, r2, rfl, hq, he⟩ := dExpect_zero he2
        have hqk := key_of hq (hg q (by simp)) (by simp) (s := [')']) (fun u hu => hu)
        refine ⟨.paren x, us ++ [q], ?_, rfl, ?_, ?_, a5, rfl⟩
        · rw [he, ht, hqk]; rfl
        · rw [he]; simp
        · simp [keys, Ex.words, ht, hqk, a4]

theorem dStmt_sound (n : Nat) (ts : List Tok) (f : List Green) (r : List Tok) (hg : Genuine ts) (h : dStmt n ts = some (f, 0, r)) :
    ∃ (s : St) (us : List Tok), f = [s.tree] ∧ ts = us ++ r ∧ keys us = s.words ∧ s.body.Ok ∧ Stop 0 r := by
  cases ts with
  | nil => simp [dStmt] at h
  | cons t r0 =>
    simp only [dStmt] at h
    split at h
    · rename_i hk
      cases hx : dExpr n 0 (dExpect .equals (dExpect .ident r0).2.2).2.2 with
      | none => rw [hx] at h; simp at h
      | some d1 =>
        rw [hx] at h
        obtain ⟨g1, f1, e1, r1⟩ := d1
        simp only [Option.some.injEq, Prod.mk.injEq] at h
        obtain ⟨rfl, h1, rfl⟩ := h
        have h2 : (dExpect .ident r0).2.1 = 0 := by omega
        have h3 : (dExpect .equals (dExpect .ident r0).2.2).2.1 = 0 := by omega
        have h4 : e1 = 0 := by omega
        subst h4
        obtain ⟨a, r2, rfl, ha, e2⟩ := dExpect_zero h2
        rw [e2] at h3 hx ⊢
        simp only at h3 hx ⊢
        obtain ⟨b, r3, rfl, hb, e3⟩ := dExpect_zero h3
        rw [e3] at hx ⊢
        simp only at hx ⊢
        have htk := key_of hk (hg t (by simp)) (by simp) (s := "val".toList) (fun u hu => hu)
        have hbk := key_of hb (hg b (by simp)) (by simp) (s := ['=']) (fun u hu => hu)
        obtain ⟨x, us, a1, a2, a3, a4, a5, a6, a7⟩ := (d_sound n).1 _ _ _ _ _ (by omega) (genuine_tail (genuine_tail (genuine_tail hg))) hx
        subst a1 a2 a3
        obtain ⟨ka, tx, sa⟩ := a
        simp only at ha
        subst ha
        refine ⟨.val tx x, t :: ⟨_, tx, sa⟩ :: b :: us, ?_, rfl, ?_, a5, a7⟩
        · rw [htk, hbk]; rfl
        · simp only [List.map_cons, htk, hbk, St.words]
          rw [← a4]
          rfl
    · cases hx : dExpr n 0 (t :: r0) with
      | none => rw [hx] at h; simp at h
      | some d1 =>
        rw [hx] at h
        obtain ⟨g1, f1, e1, r1⟩ := d1
        simp only [Option.some.injEq, Prod.mk.injEq] at h
        obtain ⟨rfl, rfl, rfl⟩ := h
        obtain ⟨x, us, a1, a2, a3, a4, a5, a6, a7⟩ := (d_sound n).1 _ _ _ _ _ (by omega) hg hx
        subst a1 a2
        exact ⟨.expr x, us, rfl, a3, a4, a5, a7⟩

theorem words_ne_nil (x : Ex) : x.words ≠ [] := by
  cases x <;> simp [Ex.words]

theorem stWords_ne_nil (s : St) : s.words ≠ [] := by
  cases s with
  | expr x => exact words_ne_nil x
  | val n x => simp [St.words]

theorem dStmts_sound (k n : Nat) (ts : List Tok) (f : List Green) (hg : Genuine ts) (h : dStmts k n ts = some (f, 0)) :
    ∃ ss : List St, f = ss.map St.tree ∧ keys ts = words ss ∧ Program ss ∧
      (Stop 0 ts → ∀ s ∈ ss, ¬ s.Minus) := by
  induction k generalizing ts f with
  | zero => simp [dStmts] at h
  | succ k ih =>
    cases ts with
    | nil =>
      simp only [dStmts, Option.some.injEq, Prod.mk.injEq] at h
      obtain ⟨rfl, _⟩ := h
      exact ⟨[], rfl, rfl, trivial, by simp⟩
    | cons t r =>
      simp only [dStmts] at h
      cases h1 : dStmt n (t :: r) with
      | none => rw [h1] at h; simp at h
      | some d1 =>
        obtain ⟨f1, e1, r1⟩ := d1
        rw [h1] at h
        simp only at h
        cases h2 : dStmts k n r1 with
        | none => rw [h2] at h; simp at h
        | some d2 =>
          obtain ⟨f2, e2⟩ := d2
          rw [h2] at h
          simp only [Option.some.injEq, Prod.mk.injEq] at h
          obtain ⟨rfl, h3⟩ := h
          have : e1 = 0 := by omega
          have : e2 = 0 := by omega
          subst e1 e2
          obtain ⟨s, us, a1, a2, a3, a4, a5⟩ := dStmt_sound n _ _ _ hg h1
          rw [a2] at hg
          obtain ⟨ss, b1, b2, b3, b4⟩ := ih r1 f2 (genuine_append hg) h2
          refine ⟨s :: ss, ?_, ?_, ?_, ?_⟩
          · rw [a1, b1]; rfl
          · rw [a2]
            simp only [keys, List.map_append, words, List.flatMap_cons]
            rw [← a3]
            congr 1
          · refine ⟨a4, fun s' hs' => ⟨?_, b4 a5 s' hs'⟩⟩
            cases ss with
            | nil => simp at hs'
            | cons s1 ss =>
              rcases List.mem_cons.1 hs' with rfl | hs'
              · exact b3.1
              · exact (b3.2 s' hs').1
          · intro hstop s' hs'
            rcases List.mem_cons.1 hs' with rfl | hs'
            · rintro ⟨ws, hw⟩
              rw [hw] at a3
              cases us with
              | nil => simp at a3
              | cons u us =>
                simp only [List.cons_append, List.cons.injEq] at a2
                obtain ⟨rfl, _⟩ := a2
                simp only [List.map_cons, List.cons.injEq] at a3
                have hk : t.kind = .minus := by
                  have := a3.1
                  simp only [Tok.key, Prod.mk.injEq] at this
                  exact this.1
                have := hstop t r .minus rfl (by rw [hk]; rfl)
                omega
            · exact b4 a5 s' hs'

/-! ## From the grammar to the parser -/

theorem opOfKind_word {t : Tok} {op : BOp} (h : t.key = opWord op) : opOfKind t.kind = some op := by
  have h1 : t.kind = (opWord op).1 := by rw [← h]; rfl
  rw [h1]
  cases op <;> rfl

theorem dLoop_stop (n min : Nat) (g : Green) (e : Nat) (ts : List Tok) (h : Stop min ts) :
    dLoop (n + 1) min g e ts = some (some g, [], e, ts) := by
  rw [dLoop.eq_def]
  simp only
  cases ts with
  | nil => rfl
  | cons t r =>
    simp only
    cases ho : opOfKind t.kind with
    | none => rfl
    | some op =>
      simp only
      rw [if_pos (h t r op rfl ho)]

theorem key_split {us : List Tok} {a b : List (TokKind × List Char)} (h : keys us = a ++ b) :
    ∃ u v, us = u ++ v ∧ keys u = a ∧ keys v = b := by
  obtain ⟨u, v, h1, h2, h3⟩ := List.map_eq_append_iff.1 h
  exact ⟨u, v, h1, h2, h3⟩

theorem key_cons {us : List Tok} {a : TokKind × List Char} {b : List (TokKind × List Char)} (h : keys us = a :: b) :
    ∃ u v, us = u :: v ∧ u.key = a ∧ keys v = b := by
  obtain ⟨u, v, h1, h2, h3⟩ := List.map_eq_cons_iff.1 h
  exact ⟨u, v, h1, h2, h3⟩

theorem key_kind {t : Tok} {k : TokKind} {s : List Char} (h : t.key = (k, s)) : t.kind = k := by
  simp only [Tok.key, Prod.mk.injEq] at h
  exact h.1

/-- The result of an operand. -/
theorem dExpr_of_lhs {n m min : Nat} {ts rest : List Tok} {g : Green} {d : DRes} (h : dLhs n ts = some (some g, [], 0, rest))
    (hl : dLoop m min g 0 rest = some d) : ∃ k, dExpr k min ts = some d := by
  refine ⟨max n m + 1, ?_⟩
  rw [dExpr, dLhs_le (Nat.le_max_left n m) h]
  exact dLoop_le (Nat.le_max_right n m) hl

theorem d_complete (x : Ex) (hx : x.Ok) (us rest : List Tok) (hu : keys us = x.words) (min : Nat) (hm : min ≤ 2 * x.level - 1)
    (hf : FitsLeft x rest) (m : Nat) (d : DRes) (hl : dLoop m min x.tree 0 rest = some d) :
    ∃ n, dExpr n min (us ++ rest) = some d := by
  induction x generalizing us rest min m d with
  | int s =>
    obtain ⟨u, v, rfl, h1, h2⟩ := key_cons hu
    have hv : v = [] := by simpa using h2
    subst hv
    refine dExpr_of_lhs (n := 1) (rest := rest) ?_ hl
    rw [dLhs.eq_def]
    simp only [List.cons_append, List.nil_append]
    rw [if_pos (Or.inl (key_kind h1)), h1, key_kind h1]
    rfl
  | long s =>
    obtain ⟨u, v, rfl, h1, h2⟩ := key_cons hu
    have hv : v = [] := by simpa using h2
    subst hv
    refine dExpr_of_lhs (n := 1) (rest := rest) ?_ hl
    rw [dLhs.eq_def]
    simp only [List.cons_append, List.nil_append]
    rw [if_pos (Or.inr (Or.inl (key_kind h1))), h1, key_kind h1]
    rfl
  | ident s =>
    obtain ⟨u, v, rfl, h1, h2⟩ := key_cons hu
    have hv : v = [] := by simpa using h2
    subst hv
    refine dExpr_of_lhs (n := 1) (rest := rest) ?_ hl
    rw [dLhs.eq_def]
    simp only [List.cons_append, List.nil_append]
    rw [if_pos (Or.inr (Or.inr (key_kind h1))), h1, key_kind h1]
    rfl
  | neg x ih =>
    obtain ⟨u, v, rfl, h1, h2⟩ := key_cons hu
    obtain ⟨hx, hlev⟩ := hx
    have hstop : Stop 5 rest := by
      intro t r op _ _
      have := prec_pos op
      rw [power_prec]
      simp only; omega
    obtain ⟨n, hn⟩ := ih hx v rest h2 5 (by rw [hlev]; omega) (fun t r op _ _ => by have := prec_pos op; rw [hlev]; omega) 1 _
      (dLoop_stop 0 5 _ 0 rest hstop)
    refine dExpr_of_lhs (n := n + 2) (rest := rest) ?_ hl
    rw [dLhs.eq_def]
    simp only [List.cons_append]
    have hk := key_kind h1
    rw [if_neg (by rw [hk]; simp), if_pos hk, dPrefix]
    simp only [negPower, hn, h1]
    rfl
  | paren x ih =>
    obtain ⟨u, v, rfl, h1, h2⟩ := key_cons hu
    obtain ⟨w, q, rfl, h3, h4⟩ := key_split h2
    obtain ⟨q, q', rfl, h5, h6⟩ := key_cons h4
    have hq' : q' = [] := by simpa using h6
    subst hq'
    have hqk := key_kind h5
    have hno : ∀ t r op, q :: rest = t :: r → opOfKind t.kind = some op → False := by
      intro t r op h h'
      cases h
      rw [hqk] at h'
      cases h'
    obtain ⟨n, hn⟩ := ih hx w (q :: rest) h3 0 (by omega) (fun t r op h h' => (hno t r op h h').elim) 1 _
      (dLoop_stop 0 0 _ 0 _ (fun t r op h h' => (hno t r op h h').elim))
    refine dExpr_of_lhs (n := n + 2) (rest := rest) ?_ hl
    rw [dLhs.eq_def]
    simp only [List.cons_append]
    have hk := key_kind h1
    rw [if_neg (by rw [hk]; simp), if_neg (by rw [hk]; simp), if_pos hk, dParen]
    have e : w ++ [q] ++ rest = w ++ q :: rest := by simp
    simp only [e, hn, dExpect, hqk, if_true, h1, h5]
    rfl
  | bin op l r ihl ihr =>
    obtain ⟨u, v, rfl, h1, h2⟩ := key_split hu
    obtain ⟨t, w, rfl, h3, h4⟩ := key_cons h2
    obtain ⟨hxl, hxr, hpl, hpr⟩ := hx
    have hp := prec_pos op
    have hlev : (Ex.bin op l r).level = prec op := rfl
    rw [hlev] at hm
    have hop := opOfKind_word h3
    have hstop : Stop (2 * prec op) rest := by
      intro t r op' h h'
      have := hf t r op' h h'
      rw [hlev] at this
      have := prec_pos op'
      rw [power_prec]
      simp only; omega
    obtain ⟨n, hn⟩ := ihr hxr w rest h4 (2 * prec op) (by omega)
      (fun t r op' h h' => by have := hf t r op' h h'; rw [hlev] at this; omega) 1 _ (dLoop_stop 0 _ _ 0 rest hstop)
    have hloop : dLoop (max n m + 1) min l.tree 0 (t :: (w ++ rest)) = some d := by
      rw [dLoop.eq_def]
      simp only [hop]
      rw [if_neg (by rw [power_prec]; simp only; omega), power_prec]
      simp only
      rw [dExpr_le (Nat.le_max_left n m) hn]
      simp only [Option.isSome_some, if_true, Option.toList_some, List.append_nil, h3, Nat.add_zero]
      rw [bin_tree]
      exact dLoop_le (Nat.le_max_right n m) hl
    obtain ⟨k, hk⟩ := ihl hxl u (t :: (w ++ rest)) h1 min (by omega)
      (fun t' r' op' h h' => by
        cases h
        rw [hop] at h'
        cases h'
        exact hpl) _ d hloop
    exact ⟨k, by simpa using hk⟩

theorem stop_zero_of {ts : List Tok} (h : ∀ t r, ts = t :: r → opOfKind t.kind = none) : Stop 0 ts := by
  intro t r op h1 h2
  rw [h t r h1] at h2
  cases h2

/-- With enough budget an expression is what the grammar says. -/
theorem dExpr_full (x : Ex) (hx : x.Ok) (us rest : List Tok) (hu : keys us = x.words)
    (hr : ∀ t r, rest = t :: r → opOfKind t.kind = none) (n : Nat) (hn : 3 * (us ++ rest).length + 3 ≤ n) :
    dExpr n 0 (us ++ rest) = some (some x.tree, [], 0, rest) := by
  obtain ⟨k, hk⟩ := d_complete x hx us rest hu 0 (by omega)
    (fun t r op h h' => by rw [hr t r h] at h'; cases h') 1 _ (dLoop_stop 0 0 _ 0 rest (stop_zero_of hr))
  obtain ⟨g, f, e, r, h1, _⟩ := (d_enough n).1 0 (us ++ rest) hn
  have h2 := dExpr_le (Nat.le_max_left k n) hk
  have h3 := dExpr_le (Nat.le_max_right k n) h1
  rw [h1, ← h3, h2]

/-- The first word of an expression that is no minus sign is no operator. -/
theorem first_word (x : Ex) : ∃ w ws, x.words = w :: ws ∧ w.1 ≠ .valKw ∧ (opOfKind w.1 = none ∨ w = (.minus, ['-'])) := by
  induction x with
  | int s => exact ⟨_, _, rfl, by simp, Or.inl rfl⟩
  | long s => exact ⟨_, _, rfl, by simp, Or.inl rfl⟩
  | ident s => exact ⟨_, _, rfl, by simp, Or.inl rfl⟩
  | neg x _ => exact ⟨_, _, rfl, by simp, Or.inr rfl⟩
  | paren x _ => exact ⟨_, _, rfl, by simp, Or.inl rfl⟩
  | bin op l r ihl _ =>
    obtain ⟨w, ws, h1, h2⟩ := ihl
    refine ⟨w, ws ++ opWord op :: r.words, ?_, h2⟩
    rw [Ex.words, h1]; rfl

theorem program_tail {s : St} {ss : List St} (h : Program (s :: ss)) : Program ss ∧ ∀ s' ∈ ss, ¬ s'.Minus := by
  refine ⟨?_, fun s' hs' => (h.2 s' hs').2⟩
  cases ss with
  | nil => trivial
  | cons s1 ss => exact ⟨(h.2 s1 (by simp)).1, fun s' hs' => h.2 s' (by simp [hs'])⟩

theorem next_no_op (ss : List St) (h : ∀ s ∈ ss, ¬ s.Minus) (ts : List Tok) (hts : keys ts = words ss) :
    ∀ t r, ts = t :: r → opOfKind t.kind = none := by
  intro t r ht
  subst ht
  cases ss with
  | nil => simp [words] at hts
  | cons s ss =>
    have hno := h s (by simp)
    cases s with
    | expr x =>
      obtain ⟨w, ws, h1, h2, h3⟩ := first_word x
      simp only [words, List.flatMap_cons, St.words, h1, List.map_cons, List.cons_append, List.cons.injEq] at hts
      rcases h3 with h3 | h3
      · have : t.kind = w.1 := by rw [← hts.1]; rfl
        rw [this]; exact h3
      · exact absurd ⟨ws, by rw [St.words, h1, h3]⟩ hno
    | val n x =>
      simp only [words, List.flatMap_cons, St.words, List.map_cons, List.cons_append, List.cons.injEq] at hts
      rw [key_kind hts.1]
      rfl

theorem dStmts_full (ss : List St) (hp : Program ss) (ts : List Tok) (hts : keys ts = words ss) (k n : Nat) (hk : ts.length < k)
    (hn : 3 * ts.length + 3 ≤ n) : dStmts k n ts = some (ss.map St.tree, 0) := by
  induction ss generalizing ts k with
  | nil =>
    have : ts = [] := by simpa [words] using hts
    subst this
    cases k with
    | zero => omega
    | succ k => rfl
  | cons s ss ih =>
    obtain ⟨hp1, hp2⟩ := program_tail hp
    have hs := hp.1
    simp only [words, List.flatMap_cons] at hts
    obtain ⟨us, rest, rfl, h1, h2⟩ := key_split hts
    have hno := next_no_op ss hp2 rest h2
    have hus : us ≠ [] := by
      rintro rfl
      exact stWords_ne_nil s h1.symm
    rw [List.length_append] at hk hn
    have hpos : 0 < us.length := List.length_pos_iff.2 hus
    have hst : dStmt n (us ++ rest) = some ([s.tree], 0, rest) := by
      cases s with
      | expr x =>
        obtain ⟨w, ws, e1, e2, _⟩ := first_word x
        have hfull := dExpr_full x hs us rest h1 hno n (by rw [List.length_append]; exact hn)
        rw [St.words, e1] at h1
        obtain ⟨u, v, rfl, h3, h4⟩ := key_cons h1
        have hu : u.kind ≠ .valKw := by
          have : u.kind = w.1 := by rw [← h3]; rfl
          rw [this]; exact e2
        simp only [List.cons_append] at hfull ⊢
        rw [dStmt, if_neg hu, hfull]
        rfl
      | val nm x =>
        obtain ⟨u, v, rfl, h3, h4⟩ := key_cons h1
        obtain ⟨a, v, rfl, h5, h6⟩ := key_cons h4
        obtain ⟨b, v, rfl, h7, h8⟩ := key_cons h6
        have hfull := dExpr_full x hs v rest h8 hno n (by
          rw [List.length_append]
          simp only [List.length_cons] at hn
          omega)
        simp only [List.cons_append]
        rw [dStmt, if_pos (key_kind h3)]
        simp only [dExpect, key_kind h5, key_kind h7, if_true, hfull, h3, h5, h7]
        rfl
    cases k with
    | zero => omega
    | succ k =>
      cases hall : us ++ rest with
      | nil => simp [hus] at hall
      | cons t r =>
        rw [hall] at hst
        rw [dStmts, hst]
        simp only
        rw [ih hp1 rest h2 k (by omega) (by omega)]
        simp

/-! ## Trees -/

theorem tree_inj (x y : Ex) (h : x.tree = y.tree) : x = y := by
  induction x generalizing y with
  | int s => cases y <;> simp_all [Ex.tree]
  | long s => cases y <;> simp_all [Ex.tree]
  | ident s => cases y <;> simp_all [Ex.tree]
  | neg x ih =>
    cases y <;> simp [Ex.tree] at h
    rw [ih _ h]
  | paren x ih =>
    cases y <;> simp [Ex.tree] at h
    rw [ih _ h]
  | bin op l r ihl ihr =>
    cases y <;> simp [Ex.tree] at h
    rename_i op' l' r'
    rw [ihl _ h.1, ihr _ h.2.2]
    have := h.2.1
    cases op <;> cases op' <;> simp_all [word, opWord]

theorem stTree_inj (s t : St) (h : s.tree = t.tree) : s = t := by
  cases s with
  | expr x =>
    cases t with
    | expr y => rw [tree_inj x y h]
    | val n y => cases x <;> simp [St.tree, Ex.tree] at h
  | val n x =>
    cases t with
    | expr y => cases y <;> simp [St.tree, Ex.tree] at h
    | val m y =>
      simp only [St.tree, Green.node.injEq, List.cons.injEq, Green.token.injEq, true_and, and_true] at h
      rw [h.1, tree_inj x y h.2]

theorem trees_inj (ss ts : List St) (h : ss.map St.tree = ts.map St.tree) : ss = ts := by
  induction ss generalizing ts with
  | nil => simpa using h.symm
  | cons s ss ih =>
    cases ts with
    | nil => simp at h
    | cons t ts =>
      simp only [List.map_cons, List.cons.injEq] at h
      rw [stTree_inj _ _ h.1, ih _ h.2]

theorem strips_trivia (w f : List Green) (h : TriviaRow w) : strips (w ++ f) = strips f := by
  obtain ⟨ts, h1, rfl⟩ := h
  induction ts with
  | nil => rfl
  | cons t ts ih =>
    have := h1 t (by simp)
    obtain ⟨k, s⟩ := t
    have ih := ih fun x hx => h1 x (by simp [hx])
    cases k <;> simp [TokKind.isTrivia] at this <;> simpa [leaf, strips] using ih

theorem strips_leaf (t : Leaf) (h : t.1.isTrivia = false) (f : List Green) : strips (leaf t :: f) = leaf t :: strips f := by
  obtain ⟨k, s⟩ := t
  cases k <;> simp [TokKind.isTrivia] at h <;> simp [leaf, strips, strip]

theorem strips_decor {f f' : List Green} (h : Decor f f') : strips f' = f := by
  induction h with
  | nil => rfl
  | leaf t ht w hw f f' hf ih => rw [strips_leaf t ht, strips_trivia w f' hw, ih]
  | node k c c' hc f f' hf ih ih' => simp [strips, strip, ih, ih']

mutual
theorem text_leaves : (g : Green) → text g = g.leaves.flatMap Prod.snd
  | .node k cs => by
    rw [text, Green.leaves]
    exact texts_leaves cs
  | .token k t => by simp [text, Green.leaves]
theorem texts_leaves : (f : List Green) → texts f = (leavesOf f).flatMap Prod.snd
  | [] => rfl
  | g :: gs => by
    rw [texts, text_leaves g, texts_leaves gs]
    show _ = (g.leaves ++ leavesOf gs).flatMap Prod.snd
    rw [List.flatMap_append]
end

theorem keys_text (ts : List Tok) : (keys ts).flatMap Prod.snd = ts.flatMap Tok.text := by
  induction ts with
  | nil => rfl
  | cons t ts ih => simp only [keys, List.map_cons, List.flatMap_cons] at ih ⊢; rw [ih]; rfl

/-! ## The whole parser -/

theorem genuine_sig (src : List Char) : Genuine (sig (lex src)) := by
  intro t ht
  exact tokens_lexeme (lex_tokens src) t (List.mem_filter.1 ht).1

/-- The parser always gives a tree, with the text of the source. -/
theorem parse_text (src : List Char) : ∃ f errs, parse src = .ok (.node .root f, errs) ∧ texts f = src := by
  obtain ⟨f, e, h⟩ := direct_some (lex src)
  obtain ⟨w, f', errs, h1, h2, h3, h4, h5⟩ := parse_direct src f e h
  refine ⟨_, _, h4, ?_⟩
  rw [texts_leaves, ← h5]
  have := keys_text (lex src)
  rw [keys] at this
  rw [this]
  exact tokens_text (lex_tokens src)

theorem parse_sound {src : List Char} {g : Green} (h : parse src = .ok (g, [])) :
    ∃ ss, Program ss ∧ Reads src (words ss) ∧ strip g = tree ss := by
  obtain ⟨f, e, hd⟩ := direct_some (lex src)
  obtain ⟨w, f', errs, h1, h2, h3, h4, h5⟩ := parse_direct src f e hd
  rw [h] at h4
  simp only [Outcome.ok.injEq, Prod.mk.injEq] at h4
  obtain ⟨rfl, rfl⟩ := h4
  simp only [List.length_nil] at h3
  subst h3
  obtain ⟨ss, a1, a2, a3, a4⟩ := dStmts_sound _ _ _ _ (genuine_sig src) hd
  refine ⟨ss, a3, (reads_iff _ _).2 a2, ?_⟩
  rw [strip, strips_trivia w f' h1, strips_decor h2, a1]
  rfl

theorem parse_complete {src : List Char} {ss : List St} (hp : Program ss) (hr : Reads src (words ss)) :
    ∃ g, parse src = .ok (g, []) ∧ strip g = tree ss := by
  have hk := (reads_iff _ _).1 hr
  have hd : direct (lex src) = some (ss.map St.tree, 0) := by
    have := sig_length (lex src)
    exact dStmts_full ss hp _ hk _ _ (by omega) (by omega)
  obtain ⟨w, f', errs, h1, h2, h3, h4, h5⟩ := parse_direct src _ _ hd
  have : errs = [] := List.length_eq_zero_iff.1 h3
  subst this
  refine ⟨_, h4, ?_⟩
  rw [strip, strips_trivia w f' h1, strips_decor h2]
  rfl

/-- Each list of words has at most one reading. -/
theorem unambiguous (ss ss' : List St) (hp : Program ss) (hp' : Program ss') (h : words ss = words ss') : ss = ss' := by
  let ts : List Tok := (words ss).map fun w => ⟨w.1, w.2, 0⟩
  have hk : keys ts = words ss := by
    simp only [keys, ts, List.map_map]
    conv => rhs; rw [← List.map_id (words ss)]
    rfl
  have h1 := dStmts_full ss hp ts hk _ _ (Nat.lt_succ_self _) (Nat.le_refl _)
  have h2 := dStmts_full ss' hp' ts (by rw [hk, h]) _ _ (Nat.lt_succ_self _) (Nat.le_refl _)
  rw [h1] at h2
  simp only [Option.some.injEq, Prod.mk.injEq, and_true] at h2
  exact trees_inj _ _ h2

end Script
end Verif
