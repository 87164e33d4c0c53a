/-!
# Shared vocabulary of the model

* `Byte`      – a Rust `u8`.
* `Parser α`  – a Rust reader (`R: ReadSigmaVlqExt`): takes the unread bytes, either fails (`none`, a Rust `Err`)
  or returns a value and the bytes still unread.  Simplification: the reader position after a failed read is not
  modelled (every caller in the modelled code propagates the error with `?`).
* `Outcome α` – result of a Rust function that can return `Ok`, return `Err`, or panic.
-/

namespace Verif

/-- Rust `u8`, e.g. `put_u8`, `sigma-ser/src/vlq_encode.rs:41`. -/
abbrev Byte := BitVec 8

/-- A sequence of bytes (`Vec<u8>` / `&[u8]`), e.g. `ergotree-ir/src/serialization/serializable.rs:145`. -/
abbrev Bytes := List Byte

/-- Result of a Rust call that may return `Ok`, `Err` or panic, e.g. `ergotree-ir/src/serialization/serializable.rs:129`; a panic is e.g.
the `unwrap` at `ergotree-ir/src/sigma_protocol/sigma_boolean/cand.rs:45`. -/
inductive Outcome (α : Type) where
  | ok (a : α)
  | err
  | panic
  deriving DecidableEq, Repr

namespace Outcome

/-- The `?` operator: errors and panics propagate, e.g. `ergotree-ir/src/serialization/types.rs:347-399`. -/
def bind {α β : Type} : Outcome α → (α → Outcome β) → Outcome β
  | ok a, f => f a
  | err, _ => err
  | panic, _ => panic

/-- `?` for `Outcome`, as in `ergotree-ir/src/serialization/types.rs:347-399`. -/
instance : Monad Outcome where
  pure := ok
  bind := bind

@[simp] theorem bind_ok {α β : Type} (a : α) (f : α → Outcome β) : ((ok a : Outcome α) >>= f) = f a := rfl
@[simp] theorem bind_err {α β : Type} (f : α → Outcome β) : ((err : Outcome α) >>= f) = err := rfl
@[simp] theorem bind_panic {α β : Type} (f : α → Outcome β) : ((panic : Outcome α) >>= f) = panic := rfl
@[simp] theorem pure_eq {α : Type} (a : α) : (pure a : Outcome α) = ok a := rfl

theorem bind_eq_ok {α β : Type} {x : Outcome α} {f : α → Outcome β} {b : β} :
    (x >>= f) = ok b ↔ ∃ a, x = ok a ∧ f a = ok b := by
  cases x <;> simp

end Outcome

/-- A reader over a byte stream, `SigmaSerializable::sigma_parse`, `ergotree-ir/src/serialization/serializable.rs:142`. -/
def Parser (α : Type) := Bytes → Option (α × Bytes)

namespace Parser

/-- Sequencing of reads with `?`, e.g. `ergotree-ir/src/types/stype_param.rs:84-89`. -/
def bind {α β : Type} (p : Parser α) (f : α → Parser β) : Parser β := fun s =>
  match p s with
  | none => none
  | some (a, s') => f a s'

/-- `?` for reads, as in `ergotree-ir/src/types/stype_param.rs:84-89`. -/
instance : Monad Parser where
  pure a := fun s => some (a, s)
  bind := bind

/-- Failing read, e.g. `ergotree-ir/src/serialization/sigmaboolean.rs:33-63`. -/
def fail {α : Type} : Parser α := fun _ => none

/-- Turn an optional conversion result into a read (`try_from(..)?`), e.g. `ergotree-ir/src/types/stype_param.rs:84-89`. -/
def ofOption {α : Type} : Option α → Parser α
  | some a => fun s => some (a, s)
  | none => fun _ => none

@[simp] theorem pure_run {α : Type} (a : α) (s : Bytes) : (pure a : Parser α) s = some (a, s) := rfl

theorem bind_run {α β : Type} (p : Parser α) (f : α → Parser β) (s : Bytes) :
    (p >>= f) s = match p s with
      | none => none
      | some (a, s') => f a s' := rfl

theorem bind_some {α β : Type} {p : Parser α} {f : α → Parser β} {s s' : Bytes} {a : α}
    (h : p s = some (a, s')) : (p >>= f) s = f a s' := by
  rw [bind_run, h]

theorem bind_none {α β : Type} {p : Parser α} {f : α → Parser β} {s : Bytes}
    (h : p s = none) : (p >>= f) s = none := by
  rw [bind_run, h]

theorem bind_eq_some {α β : Type} {p : Parser α} {f : α → Parser β} {s : Bytes} {r : β × Bytes} :
    (p >>= f) s = some r ↔ ∃ a s', p s = some (a, s') ∧ f a s' = some r := by
  rw [bind_run]
  cases h : p s with
  | none => simp
  | some q =>
    obtain ⟨a, s'⟩ := q
    constructor
    · intro h2; exact ⟨a, s', rfl, h2⟩
    · rintro ⟨a', t, h1, h2⟩
      simp only [Option.some.injEq, Prod.mk.injEq] at h1
      obtain ⟨rfl, rfl⟩ := h1
      exact h2

@[simp] theorem fail_run {α : Type} (s : Bytes) : (fail : Parser α) s = none := rfl
@[simp] theorem ofOption_some {α : Type} (a : α) (s : Bytes) : ofOption (some a) s = some (a, s) := rfl
@[simp] theorem ofOption_none {α : Type} (s : Bytes) : (ofOption (none : Option α)) s = none := rfl

/-- Laws of `?` for reads (not in the code; for `ergotree-ir/src/serialization/serializable.rs:142`). -/
instance : LawfulMonad Parser := LawfulMonad.mk'
  (id_map := by
    intro α x; funext s
    show (Parser.bind x _) s = x s
    unfold Parser.bind
    cases h : x s with
    | none => rfl
    | some q => rfl)
  (pure_bind := by intros; rfl)
  (bind_assoc := by
    intro α β γ x f g; funext s
    show (Parser.bind (Parser.bind x f) g) s = (Parser.bind x (fun a => Parser.bind (f a) g)) s
    unfold Parser.bind
    cases h : x s with
    | none => rfl
    | some q => rfl)

end Parser

/-- `read_exact` of one byte; `sigma-ser/src/vlq_encode.rs:169-173` (`get_u8`). -/
def getU8 : Parser Byte
  | [] => none
  | b :: s => some (b, s)

@[simp] theorem getU8_cons (b : Byte) (s : Bytes) : getU8 (b :: s) = some (b, s) := rfl
@[simp] theorem getU8_nil : getU8 [] = none := rfl

/-- `std::io::Read::read_exact` into a buffer of `n` bytes, used at `sigma-ser/src/vlq_encode.rs:228`. -/
def readExact (n : Nat) : Parser Bytes := fun s =>
  if n ≤ s.length then some (s.take n, s.drop n) else none

theorem readExact_append (a s : Bytes) : readExact a.length (a ++ s) = some (a, s) := by
  simp [readExact]

theorem readExact_append' {n : Nat} (a s : Bytes) (h : a.length = n) :
    readExact n (a ++ s) = some (a, s) := by
  subst h; exact readExact_append a s

/-- `for _ in 0..n { items.push(parse()?) }` (the item loop used by all list parsers), e.g.
`ergotree-ir/src/serialization/serializable.rs:160`. -/
def replicateP {α : Type} (n : Nat) (p : Parser α) : Parser (List α) :=
  match n with
  | 0 => pure []
  | n + 1 => do
    let a ← p
    let as ← replicateP n p
    pure (a :: as)

/-- The reader `p` reads back what the writer `ser` wrote, for all values satisfying `P`, in every stream, not in the code: what
`ergotree-ir/src/serialization/serializable.rs:136` and `ergotree-ir/src/serialization/serializable.rs:142` should satisfy. -/
def RoundTrips {α : Type} (P : α → Prop) (ser : α → Bytes) (p : Parser α) : Prop :=
  ∀ a, P a → ∀ rest, p (ser a ++ rest) = some (a, rest)

/-- Same for writers that may fail (`ser a = none`), not in the code: what `ergotree-ir/src/serialization/serializable.rs:136` and
`ergotree-ir/src/serialization/serializable.rs:142` should satisfy. -/
def RoundTripsOpt {α : Type} (P : α → Prop) (ser : α → Option Bytes) (p : Parser α) : Prop :=
  ∀ a, P a → ∃ bs, ser a = some bs ∧ ∀ rest, p (bs ++ rest) = some (a, rest)

theorem RoundTrips.injective {α : Type} {P : α → Prop} {ser : α → Bytes} {p : Parser α}
    (h : RoundTrips P ser p) {a b : α} (ha : P a) (hb : P b) {r r' : Bytes}
    (e : ser a ++ r = ser b ++ r') : a = b ∧ r = r' := by
  have h1 := h a ha r
  rw [e, h b hb r'] at h1
  simp only [Option.some.injEq, Prod.mk.injEq] at h1
  exact ⟨h1.1.symm, h1.2.symm⟩

theorem replicateP_roundTrips {α : Type} {P : α → Prop} {ser : α → Bytes} {p : Parser α}
    (h : RoundTrips P ser p) (l : List α) (hl : ∀ a ∈ l, P a) (rest : Bytes) :
    replicateP l.length p (l.flatMap ser ++ rest) = some (l, rest) := by
  induction l with
  | nil => rfl
  | cons a l ih =>
    simp only [List.length_cons, replicateP, List.flatMap_cons, List.append_assoc]
    rw [Parser.bind_some (h a (hl a (by simp)) _)]
    rw [Parser.bind_some (ih (fun b hb => hl b (by simp [hb])))]
    rfl

end Verif
