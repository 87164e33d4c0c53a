import Verif.Model.Fix

set_option linter.unusedVariables false

/-!
# What every result of a reader satisfies, and that a reader only removes a prefix of the stream
-/

namespace Verif

/-- Every value the reader returns satisfies `Q`. -/
def Post {α : Type} (Q : α → Prop) (p : Parser α) : Prop := ∀ s a r, p s = some (a, r) → Q a

theorem Post.pure {α : Type} {Q : α → Prop} {a : α} (h : Q a) : Post Q (pure a : Parser α) := by
  intro s b r e
  simp only [Parser.pure_run, Option.some.injEq, Prod.mk.injEq] at e
  rw [← e.1]; exact h

theorem Post.fail {α : Type} {Q : α → Prop} : Post Q (Parser.fail : Parser α) := by intro s a r e; cases e

theorem Post.ofOption {α : Type} {Q : α → Prop} {o : Option α} (h : ∀ a, o = some a → Q a) :
    Post Q (Parser.ofOption o) := by
  cases o with
  | none => intro s a r e; cases e
  | some x => exact Post.pure (h x rfl)

theorem Post.top {α : Type} {p : Parser α} : Post (fun _ => True) p := fun _ _ _ _ => trivial

theorem Post.mono {α : Type} {Q R : α → Prop} {p : Parser α} (h : Post Q p) (hi : ∀ a, Q a → R a) : Post R p :=
  fun s a r e => hi a (h s a r e)

theorem Post.bind {α β : Type} {Q : α → Prop} {R : β → Prop} {p : Parser α} {f : α → Parser β} (hp : Post Q p)
    (hf : ∀ a, Q a → Post R (f a)) : Post R (p >>= f) := by
  intro s b r e
  obtain ⟨a, s', h1, h2⟩ := Parser.bind_eq_some.1 e
  exact hf a (hp _ _ _ h1) _ _ _ h2

theorem Post.ite {α : Type} {Q : α → Prop} {c : Prop} [Decidable c] {p q : Parser α} (hp : c → Post Q p)
    (hq : ¬ c → Post Q q) : Post Q (if c then p else q) := by
  split
  · exact hp ‹_›
  · exact hq ‹_›

theorem Post.replicateP {α : Type} {Q : α → Prop} {p : Parser α} (hp : Post Q p) (n : Nat) :
    Post (fun l => l.length = n ∧ ∀ a ∈ l, Q a) (replicateP n p) := by
  induction n with
  | zero => exact Post.pure ⟨rfl, fun a ha => by cases ha⟩
  | succ n ih =>
    refine Post.bind hp (fun a ha => Post.bind ih (fun as has => Post.pure ⟨by simp [has.1], ?_⟩))
    intro b hb
    rcases List.mem_cons.1 hb with rfl | hb
    · exact ha
    · exact has.2 b hb

theorem Post.readExact (n : Nat) : Post (fun l => l.length = n) (readExact n) := by
  intro s a r e
  unfold Verif.readExact at e
  split at e
  · simp only [Option.some.injEq, Prod.mk.injEq] at e
    rw [← e.1]; simp; omega
  · cases e

/-- An invariant of the body is an invariant of the recursive reader. -/
theorem Post.fixP {α : Type} {Q : α → Prop} {F : Parser α → Parser α} (h : ∀ p, Post Q p → Post Q (F p)) :
    Post Q (fixP F) := by
  have : ∀ n, Post Q (fixFuel F n) := by
    intro n
    induction n with
    | zero => exact Post.fail
    | succ n ih => exact h _ ih
  exact fun s a r e => this _ s a r e

/-- The reader removes a prefix of the stream. -/
def Prefixes {α : Type} (p : Parser α) : Prop := ∀ s a r, p s = some (a, r) → ∃ pre, s = pre ++ r

theorem Prefixes.pure {α : Type} (a : α) : Prefixes (pure a : Parser α) := by
  intro s b r e
  simp only [Parser.pure_run, Option.some.injEq, Prod.mk.injEq] at e
  exact ⟨[], e.2⟩

theorem Prefixes.fail {α : Type} : Prefixes (Parser.fail : Parser α) := by intro s a r e; cases e

theorem Prefixes.ofOption {α : Type} (o : Option α) : Prefixes (Parser.ofOption o) := by
  cases o with
  | none => intro s a r e; cases e
  | some x => exact Prefixes.pure x

theorem Prefixes.bind {α β : Type} {p : Parser α} {f : α → Parser β} (hp : Prefixes p) (hf : ∀ a, Prefixes (f a)) :
    Prefixes (p >>= f) := by
  intro s b r e
  obtain ⟨a, s', h1, h2⟩ := Parser.bind_eq_some.1 e
  obtain ⟨p1, rfl⟩ := hp _ _ _ h1
  obtain ⟨p2, rfl⟩ := hf a _ _ _ h2
  exact ⟨p1 ++ p2, by simp⟩

theorem Prefixes.getU8 : Prefixes getU8 := by
  intro s a r e
  cases s with
  | nil => cases e
  | cons b s =>
    simp only [getU8_cons, Option.some.injEq, Prod.mk.injEq] at e
    exact ⟨[b], by rw [← e.2]; rfl⟩

theorem Prefixes.readExact (n : Nat) : Prefixes (readExact n) := by
  intro s a r e
  unfold Verif.readExact at e
  split at e
  · simp only [Option.some.injEq, Prod.mk.injEq] at e
    exact ⟨s.take n, by rw [← e.2]; simp⟩
  · cases e

theorem Prefixes.replicateP {α : Type} {p : Parser α} (hp : Prefixes p) (n : Nat) : Prefixes (replicateP n p) := by
  induction n with
  | zero => exact Prefixes.pure _
  | succ n ih => exact Prefixes.bind hp (fun a => Prefixes.bind ih (fun as => Prefixes.pure _))

theorem Prefixes.ite {α : Type} {c : Prop} [Decidable c] {p q : Parser α} (hp : Prefixes p) (hq : Prefixes q) :
    Prefixes (if c then p else q) := by
  split
  · exact hp
  · exact hq

theorem Prefixes.fixP {α : Type} {F : Parser α → Parser α} (h : ∀ p, Prefixes p → Prefixes (F p)) :
    Prefixes (fixP F) := by
  have : ∀ n, Prefixes (fixFuel F n) := by
    intro n
    induction n with
    | zero => exact Prefixes.fail
    | succ n ih => exact h _ ih
  exact fun s a r e => this _ s a r e

end Verif
