import Verif.Model.Hash
import Verif.Model.Out
import Verif.Model.WordLists

/-!
# Mnemonic phrases

Source: `ergo-lib/src/wallet/mnemonic_generator.rs`.  Texts are lists of code points.  SHA-256 is a parameter; the random bytes of
`generate` are an argument.
-/

namespace Verif.Mnemonic

/-- A text: its code points (simplification: Rust strings are UTF-8 bytes; the word files are valid UTF-8),
`ergo-lib/src/wallet/mnemonic_generator.rs:71-78`. -/
abbrev Chars := List Nat

/-- `Language`, `mnemonic_generator.rs:11-28`. -/
inductive Language
  | chineseSimplified | chineseTraditional | english | french | italian | japanese | korean | spanish
  deriving DecidableEq, Repr

/-- `<Language as Display>::fmt`, `mnemonic_generator.rs:37-51`. -/
def Language.text : Language → List Char
  | .chineseSimplified => "chinese_simplified".toList
  | .chineseTraditional => "chinese_traditional".toList
  | .english => "english".toList
  | .french => "french".toList
  | .italian => "italian".toList
  | .japanese => "japanese".toList
  | .korean => "korean".toList
  | .spanish => "spanish".toList

/-- `<Language as FromStr>::from_str`, `mnemonic_generator.rs:53-69`. -/
def Language.parse (s : List Char) : Option Language :=
  if s = "chinese_simplified".toList then some .chineseSimplified
  else if s = "chinese_traditional".toList then some .chineseTraditional
  else if s = "english".toList then some .english
  else if s = "french".toList then some .french
  else if s = "italian".toList then some .italian
  else if s = "japanese".toList then some .japanese
  else if s = "korean".toList then some .korean
  else if s = "spanish".toList then some .spanish
  else none

/-- The file of a language, `mnemonic_generator.rs:71-78, 86-95`. -/
def Language.file : Language → Chars
  | .chineseSimplified => chineseSimplifiedFile
  | .chineseTraditional => chineseTraditionalFile
  | .english => englishFile
  | .french => frenchFile
  | .italian => italianFile
  | .japanese => japaneseFile
  | .korean => koreanFile
  | .spanish => spanishFile

/-- The carriage return before a newline, which `str::lines` removes (the line is given in reverse), `mnemonic_generator.rs:96`. -/
def dropCr : Chars → Chars
  | 13 :: r => r
  | r => r

/-- `str::lines`, used at `mnemonic_generator.rs:96`: the lines without their ends; no line after a final newline.  The second
argument holds the characters of the current line in reverse. -/
def linesGo : Chars → Chars → List Chars
  | [], cur => if cur = [] then [] else [cur.reverse]
  | c :: s, cur => if c = 10 then (dropCr cur).reverse :: linesGo s [] else linesGo s (c :: cur)

/-- `WordList::words`, `mnemonic_generator.rs:85-98`. -/
def Language.words (l : Language) : List Chars := linesGo l.file []

/-- `WordList::delimiter`, `mnemonic_generator.rs:101-112`; all delimiters are single characters. -/
def Language.delimiter : Language → Nat
  | .japanese => 0x3000
  | _ => 32

/-- The bits of a byte in the order `Msb0` of the crate `bitvec`, used at `mnemonic_generator.rs:164, 166`. -/
def msbBits (b : Byte) : List Bool := (List.range 8).map (fun i => b.getMsbD i)

/-- `BitVec::<_, Msb0>::from_vec`, `mnemonic_generator.rs:164, 166`. -/
def bitVec (bs : Bytes) : List Bool := bs.flatMap msbBits

/-- `chunks`, `mnemonic_generator.rs:172`: pieces of `k` bits, the last one may be shorter.  The first argument bounds the number of
pieces (the number of bits is enough). -/
def chunks : Nat → Nat → List Bool → List (List Bool)
  | 0, _, _ => []
  | _ + 1, _, [] => []
  | f + 1, k, b :: l => (b :: l).take k :: chunks f k ((b :: l).drop k)

/-- `load_be::<usize>`, `mnemonic_generator.rs:173`: the bits as a number, the first bit being the highest. -/
def loadBe (l : List Bool) : Nat := l.foldl (fun a b => 2 * a + b.toNat) 0

/-- The words of the pieces, `mnemonic_generator.rs:173`; indexing outside of the list panics. -/
def pick (ws : List Chars) : List (List Bool) → Outcome (List Chars)
  | [] => .ok []
  | c :: cs =>
    match ws[loadBe c]? with
    | none => .panic
    | some w => (pick ws cs).bind fun r => .ok (w :: r)

/-- `join`, `mnemonic_generator.rs:175`. -/
def join (d : Nat) : List Chars → Chars
  | [] => []
  | [w] => w
  | w :: v :: ws => w ++ d :: join d (v :: ws)

/-- `ALLOWED_STRENGTHS`, `mnemonic_generator.rs:137`. -/
def strengths : List Nat := [128, 160, 192, 224, 256]

/-- `allowed_entrophy_lens`, `mnemonic_generator.rs:181-183`. -/
def entropyLens : List Nat := strengths.map (· / 8)

/-- `MnemonicGenerator::from_entrophy`, `mnemonic_generator.rs:157-179`.  The slice of the checksum is within the 256 bits of the
hash. -/
def fromEntropy (sha : HashFn) (l : Language) (e : Bytes) : Outcome Chars :=
  if e.length ∈ entropyLens then
    let bits := bitVec e ++ (bitVec (sha e)).take (e.length / 4)
    (pick l.words (chunks bits.length 11 bits)).bind fun ws => .ok (join l.delimiter ws)
  else .err

/-- `MnemonicGenerator::generate`, `mnemonic_generator.rs:146-154`.  The random bytes are given by `rnd`, a function of the number of
bytes asked for. -/
def generate (sha : HashFn) (rnd : Nat → Bytes) (l : Language) (strength : Nat) : Outcome Chars :=
  if strength ∈ strengths then fromEntropy sha l (rnd (strength / 8)) else .err

end Verif.Mnemonic
