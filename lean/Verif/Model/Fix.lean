import Verif.Model.Base

/-!
# Recursive readers

Rust readers of recursive data (`SigmaBoolean::sigma_parse`, `SType::parse_with_tag`, …) call themselves on the same
stream.  A recursive reader is modelled as `fixP F`, where `F` is the body of the Rust function with the recursive call
as a parameter.  `fixP` runs `F` with a recursion budget larger than the number of unread bytes; `fixP_eq` shows that
for a body that reads at least one byte before recursing the budget is never the reason of a failure:
`fixP F = F (fixP F)`.  (Exhaustion of the Rust call stack is not modelled.)
-/

namespace Verif

/-- `F` unrolled `n` times; the innermost call fails, not in the code: a device for recursive readers such as
`ergotree-ir/src/serialization/sigmaboolean.rs:33-63`. -/
def fixFuel {α : Type} (F : Parser α → Parser α) : Nat → Parser α
  | 0 => Parser.fail
  | n + 1 => F (fixFuel F n)

/-- The recursive reader with body `F`, e.g. `ergotree-ir/src/serialization/sigmaboolean.rs:33-63`. -/
def fixP {α : Type} (F : Parser α → Parser α) : Parser α := fun s => fixFuel F (s.length + 1) s

/-- A reader never returns more bytes than it was given, true of the readers of the code, e.g.
`ergotree-ir/src/serialization/serializable.rs:142`. -/
def NonExp {α : Type} (p : Parser α) : Prop := ∀ s a r, p s = some (a, r) → r.length ≤ s.length

/-- Two readers agree on all streams shorter than `n`, not in the code, see `fixP`; for
`ergotree-ir/src/serialization/sigmaboolean.rs:33-63`. -/
def AgreeLt {α : Type} (n : Nat) (p q : Parser α) : Prop := ∀ s, s.length < n → p s = q s

/-- A body of a recursive reader that consumes at least one byte before it recurses, e.g.
`ergotree-ir/src/serialization/sigmaboolean.rs:33-63`, which reads an op code first. -/
structure Productive {α : Type} (F : Parser α → Parser α) : Prop where
  nonExp : ∀ p, NonExp p → NonExp (F p)
  step : ∀ p q s, NonExp p → NonExp q → AgreeLt s.length p q → F p s = F q s

theorem fixFuel_nonExp {α : Type} {F : Parser α → Parser α} (h : Productive F) (n : Nat) :
    NonExp (fixFuel F n) := by
  induction n with
  | zero => intro s a r e; cases e
  | succ n ih => exact h.nonExp _ ih

theorem fixFuel_enough {α : Type} {F : Parser α → Parser α} (h : Productive F) :
    ∀ (m : Nat) (s : Bytes) (n k : Nat), s.length ≤ m → s.length < n → s.length < k →
      fixFuel F n s = fixFuel F k s := by
  intro m
  induction m with
  | zero =>
    intro s n k hm hn hk
    obtain ⟨n, rfl⟩ : ∃ n', n = n' + 1 := ⟨n - 1, by omega⟩
    obtain ⟨k, rfl⟩ : ∃ k', k = k' + 1 := ⟨k - 1, by omega⟩
    exact h.step _ _ _ (fixFuel_nonExp h _) (fixFuel_nonExp h _) (fun t ht => by omega)
  | succ m ih =>
    intro s n k hm hn hk
    obtain ⟨n, rfl⟩ : ∃ n', n = n' + 1 := ⟨n - 1, by omega⟩
    obtain ⟨k, rfl⟩ : ∃ k', k = k' + 1 := ⟨k - 1, by omega⟩
    exact h.step _ _ _ (fixFuel_nonExp h _) (fixFuel_nonExp h _)
      (fun t ht => ih t n k (by omega) (by omega) (by omega))

theorem fixP_nonExp {α : Type} {F : Parser α → Parser α} (h : Productive F) : NonExp (fixP F) :=
  fun s a r e => fixFuel_nonExp h _ s a r e

/-- The recursive reader satisfies its recursion equation on every stream. -/
theorem fixP_eq {α : Type} {F : Parser α → Parser α} (h : Productive F) : fixP F = F (fixP F) := by
  funext s
  show F (fixFuel F s.length) s = F (fixP F) s
  refine h.step _ _ _ (fixFuel_nonExp h _) (fixP_nonExp h) ?_
  intro t ht
  exact fixFuel_enough h t.length t _ _ (Nat.le_refl _) ht (Nat.lt_succ_self _)

/-! ## Closure properties used to show that a body is productive -/

theorem NonExp.pure {α : Type} (a : α) : NonExp (pure a : Parser α) := by
  intro s b r e
  simp only [Parser.pure_run, Option.some.injEq, Prod.mk.injEq] at e
  rw [e.2]; exact Nat.le_refl _

theorem NonExp.fail {α : Type} : NonExp (Parser.fail : Parser α) := by intro s a r e; cases e

theorem NonExp.ofOption {α : Type} (o : Option α) : NonExp (Parser.ofOption o) := by
  cases o with
  | none => intro s a r e; cases e
  | some x => exact NonExp.pure x

theorem NonExp.bind {α β : Type} {p : Parser α} {f : α → Parser β} (hp : NonExp p) (hf : ∀ a, NonExp (f a)) :
    NonExp (p >>= f) := by
  intro s b r e
  obtain ⟨a, s', h1, h2⟩ := Parser.bind_eq_some.1 e
  exact Nat.le_trans (hf a _ _ _ h2) (hp _ _ _ h1)

theorem NonExp.getU8 : NonExp getU8 := by
  intro s a r e
  cases s with
  | nil => cases e
  | cons b s =>
    simp only [getU8_cons, Option.some.injEq, Prod.mk.injEq] at e
    rw [← e.2]; exact Nat.le_succ _

theorem NonExp.readExact (n : Nat) : NonExp (readExact n) := by
  intro s a r e
  unfold Verif.readExact at e
  split at e
  · simp only [Option.some.injEq, Prod.mk.injEq] at e
    rw [← e.2]; simp
  · cases e

theorem NonExp.replicateP {α : Type} {p : Parser α} (hp : NonExp p) (n : Nat) : NonExp (replicateP n p) := by
  induction n with
  | zero => exact NonExp.pure _
  | succ n ih => exact NonExp.bind hp (fun a => NonExp.bind ih (fun as => NonExp.pure _))

theorem NonExp.ite {α : Type} {c : Prop} [Decidable c] {p q : Parser α} (hp : NonExp p) (hq : NonExp q) :
    NonExp (if c then p else q) := by
  split
  · exact hp
  · exact hq

theorem AgreeLt.rfl {α : Type} {n : Nat} {p : Parser α} : AgreeLt n p p := fun _ _ => Eq.refl _

theorem AgreeLt.bind {α β : Type} {n : Nat} {p q : Parser α} {f g : α → Parser β} (hp : NonExp p)
    (h : AgreeLt n p q) (hf : ∀ a, AgreeLt n (f a) (g a)) : AgreeLt n (p >>= f) (q >>= g) := by
  intro s hs
  rw [Parser.bind_run, Parser.bind_run, ← h s hs]
  cases e : p s with
  | none => rfl
  | some x =>
    obtain ⟨a, r⟩ := x
    exact hf a r (Nat.lt_of_le_of_lt (hp _ _ _ e) hs)

theorem AgreeLt.replicateP {α : Type} {n : Nat} {p q : Parser α} (hp : NonExp p) (h : AgreeLt n p q) (k : Nat) :
    AgreeLt n (replicateP k p) (replicateP k q) := by
  induction k with
  | zero => exact AgreeLt.rfl
  | succ k ih => exact AgreeLt.bind hp h (fun a => AgreeLt.bind (NonExp.replicateP hp k) ih (fun as => AgreeLt.rfl))

theorem AgreeLt.ite {α : Type} {n : Nat} {c : Prop} [Decidable c] {p q p' q' : Parser α} (hp : AgreeLt n p p')
    (hq : AgreeLt n q q') : AgreeLt n (if c then p else q) (if c then p' else q') := by
  split
  · exact hp
  · exact hq

/-- After reading one byte the remaining stream is strictly shorter. -/
theorem getU8_bind_agree {α : Type} {f g : Byte → Parser α} (s : Bytes)
    (h : ∀ b, AgreeLt s.length (f b) (g b)) : (getU8 >>= f) s = (getU8 >>= g) s := by
  cases s with
  | nil => rfl
  | cons b s => exact h b s (Nat.lt_succ_self _)

end Verif
