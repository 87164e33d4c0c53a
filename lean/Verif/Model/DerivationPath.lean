import Verif.Model.Base
import Verif.Model.Value

/-!
# Derivation paths

Source: `ergo-lib/src/wallet/derivation_path.rs`.  Text is a list of characters (`Char` is a Unicode scalar value, as a Rust
`char`).  The standard library functions used (`u32` display and parse, `split`, `split_whitespace`, `replace`, `join`) are
modelled here.
-/

namespace Verif

/-- `ChildIndex`, `derivation_path.rs:51-57`, with the wrapped `ChildIndexHardened(u32)` (9-11) and `ChildIndexNormal(u32)`
(29-31). -/
inductive ChildIndex where
  | hardened (i : BitVec 32)
  | normal (i : BitVec 32)
  deriving DecidableEq, Repr

/-- `DerivationPath`, `derivation_path.rs:125-129`. -/
abbrev DerivationPath := List ChildIndex

/-- `ChildIndexHardened::from_31_bit` and `ChildIndex::hardened`, `derivation_path.rs:14-21, 103-106`. -/
def ChildIndex.mkHardened (i : BitVec 32) : Outcome ChildIndex :=
  if i &&& 0x80000000#32 = 0#32 then .ok (.hardened i) else .err

/-- `ChildIndexNormal::normal` and `ChildIndex::normal`, `derivation_path.rs:34-41, 98-101`. -/
def ChildIndex.mkNormal (i : BitVec 32) : Outcome ChildIndex :=
  if i &&& 0x80000000#32 = 0#32 then .ok (.normal i) else .err

/-- `u32` addition of one (`self.0 + 1`): panics on overflow in a debug build, wraps in a release build,
`ergo-lib/src/wallet/derivation_path.rs:25, 45`. -/
def incU32 (m : Mode) (i : BitVec 32) : Outcome (BitVec 32) :=
  if i.toNat + 1 < 2 ^ 32 then .ok (i + 1#32)
  else match m with
    | .debug => .panic
    | .release => .ok (i + 1#32)

/-- `ChildIndex::next` with `ChildIndexHardened::next` and `ChildIndexNormal::next`, `derivation_path.rs:24-26, 44-46,
117-122`. -/
def ChildIndex.next (m : Mode) : ChildIndex → Outcome ChildIndex
  | .hardened i => do
    let j ← incU32 m i
    ChildIndex.mkHardened j
  | .normal i => do
    let j ← incU32 m i
    pure (.normal j)

/-- `ChildIndex::to_bits`, `derivation_path.rs:110-115`. -/
def ChildIndex.toBits : ChildIndex → BitVec 32
  | .hardened i => 0x80000000#32 ||| i
  | .normal i => i

/-- Decimal digit as a character (`core::fmt` of an unsigned integer), for `ergo-lib/src/wallet/derivation_path.rs:58-65`. -/
def digitChar (d : Nat) : Char := Char.ofNat (48 + d)

/-- `Display` of `u32`: decimal, no leading zeros, `0` for zero, used at `ergo-lib/src/wallet/derivation_path.rs:58-65`. -/
def decimal (n : Nat) : List Char :=
  if n < 10 then [digitChar n] else decimal (n / 10) ++ [digitChar (n % 10)]
termination_by n

/-- `char::to_digit(10)`, for `ergo-lib/src/wallet/derivation_path.rs:67-80`. -/
def digitVal (c : Char) : Option Nat :=
  if 48 ≤ c.toNat ∧ c.toNat ≤ 57 then some (c.toNat - 48) else none

/-- The digit loop of `u32::from_str_radix(_, 10)`: fails on a character that is not a digit and on overflow, for
`ergo-lib/src/wallet/derivation_path.rs:67-80`. -/
def parseDigits : Nat → List Char → Option Nat
  | acc, [] => some acc
  | acc, c :: cs =>
    match digitVal c with
    | none => none
    | some d => if acc * 10 + d < 2 ^ 32 then parseDigits (acc * 10 + d) cs else none

/-- `str::parse::<u32>()`: an empty text and a lone sign are errors, one leading `+` is allowed (a `-` is not a digit), used at
`ergo-lib/src/wallet/derivation_path.rs:67-80`. -/
def parseU32 : List Char → Option (BitVec 32)
  | [] => none
  | c :: cs =>
    let ds := if c = '+' then cs else c :: cs
    if ds = [] then none else (parseDigits 0 ds).map (BitVec.ofNat 32)

/-- `Display for ChildIndex`, `derivation_path.rs:59-66`. -/
def ChildIndex.display : ChildIndex → List Char
  | .hardened i => decimal i.toNat ++ ['\'']
  | .normal i => decimal i.toNat

/-- `FromStr for ChildIndex`, `derivation_path.rs:68-81`: `replace('\'', "")` removes every quote. -/
def ChildIndex.fromStr (s : List Char) : Outcome ChildIndex :=
  if '\'' ∈ s then
    match parseU32 (s.filter (· ≠ '\'')) with
    | none => .err
    | some i => ChildIndex.mkHardened i
  else
    match parseU32 s with
    | none => .err
    | some i => ChildIndex.mkNormal i

/-- `char::is_whitespace`: the Unicode `White_Space` property, for `split_whitespace`, `ergo-lib/src/wallet/derivation_path.rs:257`. -/
def isWhitespace (c : Char) : Bool :=
  let n := c.toNat
  (9 ≤ n && n ≤ 13) || n == 0x20 || n == 0x85 || n == 0xA0 || n == 0x1680 || (0x2000 ≤ n && n ≤ 0x200A) || n == 0x2028 ||
    n == 0x2029 || n == 0x202F || n == 0x205F || n == 0x3000

/-- `s.split('/')`: the pieces between the separators; never empty, `ergo-lib/src/wallet/derivation_path.rs:258`. -/
def splitSlash : List Char → List (List Char)
  | [] => [[]]
  | c :: cs =>
    match splitSlash cs with
    | [] => [[c]]
    | p :: ps => if c = '/' then [] :: p :: ps else (c :: p) :: ps

/-- `.join("/")`, `ergo-lib/src/wallet/derivation_path.rs:242-246`. -/
def joinSlash : List (List Char) → List Char
  | [] => []
  | [p] => p
  | p :: q :: ps => p ++ '/' :: joinSlash (q :: ps)

namespace DerivationPath

/-- `DerivationPath::new` with `PURPOSE`, `ERG`, `CHANGE`, `derivation_path.rs:83-86, 150-160`. -/
def new (acc : BitVec 32) (addresses : List (BitVec 32)) : DerivationPath :=
  [.hardened 44#32, .hardened 429#32, .hardened acc, .normal 0#32] ++ addresses.map ChildIndex.normal

/-- `DerivationPath::next`, `derivation_path.rs:182-194`. -/
def next (m : Mode) (p : DerivationPath) : Outcome DerivationPath :=
  match p.getLast? with
  | none => .err
  | some l => do
    let l' ← l.next m
    pure (p.dropLast ++ [l'])

/-- `DerivationPath::ledger_bytes`, `derivation_path.rs:222-228` (`len() as u8` keeps the low eight bits). -/
def ledgerBytes (p : DerivationPath) : Bytes :=
  BitVec.ofNat 8 p.length :: p.flatMap fun i =>
    let b := i.toBits
    [b.extractLsb' 24 8, b.extractLsb' 16 8, b.extractLsb' 8 8, b.extractLsb' 0 8]

/-- `Display for DerivationPath`, `derivation_path.rs:231-243`. -/
def display (p : DerivationPath) : List Char := 'm' :: '/' :: joinSlash (p.map ChildIndex.display)

/-- `parts.into_iter().flat_map(ChildIndex::from_str)`, `derivation_path.rs:259-262`: iterating over a `Result` yields its
`Ok` value, or nothing for an `Err`. -/
def indices (parts : List (List Char)) : DerivationPath :=
  parts.flatMap fun s =>
    match ChildIndex.fromStr s with
    | .ok i => [i]
    | _ => []

/-- `FromStr for DerivationPath`, `derivation_path.rs:246-265`. -/
def fromStr (s : List Char) : Outcome DerivationPath :=
  match splitSlash (s.filter fun c => !isWhitespace c) with
  | [] => .err
  | master :: parts => if master ≠ ['m'] ∧ master ≠ ['M'] then .err else .ok (indices parts)

end DerivationPath

end Verif
