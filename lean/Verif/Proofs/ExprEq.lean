import Verif.Model.Expr
import Verif.Proofs.NonExp

set_option linter.unusedVariables false
set_option linter.unusedSimpArgs false

/-! The recursion equation of the expression reader, and its op code table. -/

namespace Verif

theorem Kind.ofCode_code (k : Kind) : Kind.ofCode k.code = some k := by
  cases k with
  | simple o => cases o <;> rfl
  | bin k => cases k <;> rfl
  | cast u => cases u <;> rfl
  | sigma u => cases u <;> rfl
  | _ => rfl

theorem Kind.code_gt (k : Kind) : ¬ k.code.toNat ≤ 112 := by
  cases k with
  | simple o => cases o <;> decide
  | bin k => cases k <;> decide
  | cast u => cases u <;> decide
  | sigma u => cases u <;> decide
  | _ => decide

theorem Kind.code_of_ofCode {t : Byte} {k : Kind} (h : Kind.ofCode t = some k) : k.code = t := by
  have key : ∀ n : Fin 256, ∀ k, Kind.ofCode (BitVec.ofFin n) = some k → k.code = BitVec.ofFin n := by
    have : ∀ n : Fin 256, (match Kind.ofCode (BitVec.ofFin n : Byte) with
        | some k => decide (k.code = BitVec.ofFin n)
        | none => true) = true := by decide +kernel
    intro n k hk
    have := this n
    rw [hk] at this
    exact of_decide_eq_true this
  exact key t.toFin k h

theorem Kind.code_injective {k k' : Kind} (h : k.code = k'.code) : k = k' := by
  have := Kind.ofCode_code k
  rw [h, Kind.ofCode_code] at this
  exact (Option.some.inj this).symm

namespace Expr
variable {G B T : Type}

theorem nonExp_parseN {q : EP G B} (h : ∀ st, NonExp (q st)) : ∀ n st, NonExp (parseN q n st)
  | 0, st => NonExp.pure _
  | n + 1, st => NonExp.bind (h st) (fun a => NonExp.bind (nonExp_parseN h n a.2) (fun l => NonExp.pure _))

theorem nonExp_parseOpt {q : EP G B} (h : ∀ st, NonExp (q st)) (st : TStore) : NonExp (parseOpt q st) :=
  NonExp.bind NonExp.getU8 (fun t => NonExp.ite (NonExp.bind (h st) (fun a => NonExp.pure _)) (NonExp.pure _))

theorem nonExp_parseArg (utf8 : Bytes → Bool) : NonExp (parseArg utf8) := by
  unfold parseArg; nonexp

theorem agree_parseN {n : Nat} {q q' : EP G B} (hq : ∀ st, NonExp (q st)) (h : ∀ st, AgreeLt n (q st) (q' st)) :
    ∀ k st, AgreeLt n (parseN q k st) (parseN q' k st)
  | 0, st => AgreeLt.rfl
  | k + 1, st => AgreeLt.bind (hq st) (h st) (fun a =>
      AgreeLt.bind (nonExp_parseN hq k a.2) (agree_parseN hq h k a.2) (fun l => AgreeLt.rfl))

theorem agree_parseOpt {n : Nat} {q q' : EP G B} (hq : ∀ st, NonExp (q st)) (h : ∀ st, AgreeLt n (q st) (q' st))
    (st : TStore) : AgreeLt n (parseOpt q st) (parseOpt q' st) :=
  AgreeLt.bind NonExp.getU8 AgreeLt.rfl (fun t =>
    AgreeLt.ite (AgreeLt.bind (hq st) (h st) (fun a => AgreeLt.rfl)) AgreeLt.rfl)

theorem nonExp_withTag {p : TStore × Byte → Parser (Expr G B × TStore)} (h : ∀ i, NonExp (p i)) (st : TStore) :
    NonExp (withTag p st) := NonExp.bind NonExp.getU8 (fun _ => h _)

theorem getU8_agree_succ {α : Type} {n : Nat} {f g : Byte → Parser α} (h : ∀ b, AgreeLt n (f b) (g b)) :
    AgreeLt (n + 1) (getU8 >>= f) (getU8 >>= g) := by
  intro s hs
  cases s with
  | nil => rfl
  | cons b s => exact h b s (by simp only [List.length_cons] at hs; omega)

theorem agree_withTag {n : Nat} {p p' : TStore × Byte → Parser (Expr G B × TStore)} (h : ∀ i, AgreeLt n (p i) (p' i))
    (st : TStore) : AgreeLt (n + 1) (withTag p st) (withTag p' st) := getU8_agree_succ (fun b => h _)

theorem AgreeLt.mono {α : Type} {n m : Nat} {p q : Parser α} (h : AgreeLt m p q) (hn : n ≤ m) : AgreeLt n p q :=
  fun s hs => h s (by omega)

/-- Extension of `nonexp` to the readers of expressions. -/
macro "nonexpE" : tactic => `(tactic| repeat' first
  | exact NonExp.pure _
  | exact NonExp.fail
  | exact NonExp.getU8
  | exact NonExp.getI8
  | exact NonExp.getU16
  | exact NonExp.getU32
  | exact NonExp.getBits _
  | exact SType.nonExp_parse _
  | exact nonExp_parseArg _
  | solve_by_elim
  | refine NonExp.replicateP ?_ _
  | refine nonExp_parseN (by assumption) _ _
  | refine nonExp_parseOpt (by assumption) _
  | refine NonExp.bind ?_ (fun _ => ?_)
  | refine NonExp.ite ?_ ?_
  | split)

theorem nonExp_parseTag (E : Sers G B T) (hb : NonExp E.bc.parse) (R : Reader G B)
    {p : TStore × Byte → Parser (Expr G B × TStore)} {q : EP G B} (hp : ∀ i, NonExp (p i)) (hq : ∀ st, NonExp (q st))
    (i : TStore × Byte) : NonExp (parseTag E R p q i) := by
  have hc := Constant.nonExp_parseCode E.utf8 E.pc E.bc hb
  unfold parseTag
  refine NonExp.ite (NonExp.bind (hc _) (fun _ => NonExp.pure _)) ?_
  split
  · exact NonExp.fail
  · unfold parseKind
    split <;> nonexpE

macro "agreeE" : tactic => `(tactic| repeat' first
  | exact AgreeLt.rfl
  | solve_by_elim
  | refine agree_parseN (by assumption) (by assumption) _ _
  | refine agree_parseOpt (by assumption) (by assumption) _
  | refine AgreeLt.bind (by nonexpE) ?_ (fun _ => ?_)
  | refine AgreeLt.ite ?_ ?_
  | split)

theorem agree_parseTag (E : Sers G B T) (hb : NonExp E.bc.parse) (R : Reader G B) {n : Nat}
    {p p' : TStore × Byte → Parser (Expr G B × TStore)} (hp : ∀ i, NonExp (p i)) (h : ∀ i, AgreeLt n (p i) (p' i))
    (i : TStore × Byte) : AgreeLt (n + 1) (parseTag E R p (withTag p) i) (parseTag E R p' (withTag p') i) := by
  have hc := Constant.nonExp_parseCode E.utf8 E.pc E.bc hb
  have hq := nonExp_withTag hp
  have ha := agree_withTag h
  have ha' : ∀ st, AgreeLt n (withTag p st) (withTag p' st) := fun st => AgreeLt.mono (ha st) (by omega)
  unfold parseTag
  refine AgreeLt.ite AgreeLt.rfl ?_
  split
  · exact AgreeLt.rfl
  unfold parseKind
  split
  case h_2 k =>
    refine getU8_agree_succ (fun b => ?_)
    refine AgreeLt.ite AgreeLt.rfl (AgreeLt.bind (hp _) (h _) (fun l => AgreeLt.bind (hq _) (ha' _) (fun r => AgreeLt.rfl)))
  all_goals agreeE

theorem parseFuel_nonExp (E : Sers G B T) (hb : NonExp E.bc.parse) (R : Reader G B) (n : Nat) :
    ∀ i, NonExp (parseFuel E R n i) := by
  induction n with
  | zero => intro i s a r e; cases e
  | succ n ih => exact fun i => nonExp_parseTag E hb R ih (nonExp_withTag ih) i

theorem parseFuel_enough (E : Sers G B T) (hb : NonExp E.bc.parse) (R : Reader G B) :
    ∀ (m : Nat) (i : TStore × Byte) (s : Bytes) (n k : Nat), s.length ≤ m → s.length < n → s.length < k →
      parseFuel E R n i s = parseFuel E R k i s := by
  intro m
  induction m with
  | zero =>
    intro i s n k hm hn hk
    obtain ⟨n, rfl⟩ : ∃ n', n = n' + 1 := ⟨n - 1, by omega⟩
    obtain ⟨k, rfl⟩ : ∃ k', k = k' + 1 := ⟨k - 1, by omega⟩
    refine agree_parseTag E hb R (n := 0) (parseFuel_nonExp E hb R n) ?_ i s (by omega)
    intro i t ht; omega
  | succ m ih =>
    intro i s n k hm hn hk
    obtain ⟨n, rfl⟩ : ∃ n', n = n' + 1 := ⟨n - 1, by omega⟩
    obtain ⟨k, rfl⟩ : ∃ k', k = k' + 1 := ⟨k - 1, by omega⟩
    refine agree_parseTag E hb R (n := s.length) (parseFuel_nonExp E hb R n) ?_ i s (by omega)
    intro i t ht
    exact ih i t n k (by omega) (by omega) (by omega)

theorem parseWith_nonExp (E : Sers G B T) (hb : NonExp E.bc.parse) (R : Reader G B) (i : TStore × Byte) :
    NonExp (parseWith E R i) := fun s a r e => parseFuel_nonExp E hb R _ i s a r e

theorem parse_nonExp (E : Sers G B T) (hb : NonExp E.bc.parse) (R : Reader G B) (st : TStore) :
    NonExp (parse E R st) := nonExp_withTag (parseWith_nonExp E hb R) st

/-- `parse_with_tag` satisfies its recursion equation on every stream. -/
theorem parseWith_eq (E : Sers G B T) (hb : NonExp E.bc.parse) (R : Reader G B) (i : TStore × Byte) :
    parseWith E R i = parseTag E R (parseWith E R) (parse E R) i := by
  funext s
  show parseTag E R (parseFuel E R s.length) (withTag (parseFuel E R s.length)) i s = _
  refine agree_parseTag E hb R (n := s.length) (parseFuel_nonExp E hb R _) ?_ i s (by omega)
  intro j t ht
  exact parseFuel_enough E hb R t.length j t _ _ (Nat.le_refl _) ht (Nat.lt_succ_self _)

end Expr
end Verif
