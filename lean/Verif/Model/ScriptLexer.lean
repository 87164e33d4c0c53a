/-!
# ErgoScript: splitting a source text into tokens

Source: `ergoscript-compiler/src/lexer.rs`, `ergoscript-compiler/src/lexer/token_kind.rs`.

The scanner is generated by the crate `logos` from the patterns in `token_kind.rs:7-61`.  `lexOne` is written by hand after these
patterns with the rule of that crate: the longest match wins, a keyword beats an identifier of the same length, and a
character with which no match begins is an error token of its own.  A text is a list of characters.
-/

namespace Verif
namespace Script

/-- `TokenKind`, `lexer/token_kind.rs:6-61`. -/
inductive TokKind where
  | whitespace | fnKw | valKw | ident | intNumber | longNumber | plus | minus | star | slash | and | equals
  | lParen | rParen | lBrace | rBrace | comment | error
  deriving DecidableEq, Repr

/-- `TokenKind::is_trivia`, `lexer/token_kind.rs:63-67`. -/
def TokKind.isTrivia : TokKind → Bool
  | .whitespace | .comment => true
  | _ => false

/-- The length of a text in bytes of UTF-8, in which `TextSize` and `str::len` count, `ergoscript-compiler/src/lexer.rs:42-47`. -/
def textLen : List Char → Nat
  | [] => 0
  | c :: s => c.utf8Size + textLen s

/-- `Token`, `lexer.rs:42-47`; `start` and the length of `text` are its `range`. -/
structure Tok where
  kind : TokKind
  text : List Char
  start : Nat
  deriving DecidableEq, Repr

/-- `Token::range`, `lexer.rs:46`. -/
def Tok.range (t : Tok) : Nat × Nat := (t.start, t.start + textLen t.text)

/-- `[ \n]`, `token_kind.rs:8`. -/
def isBlank (c : Char) : Bool := c == ' ' || c == '\n'
/-- `[A-Za-z]`, `token_kind.rs:17`. -/
def isLetter (c : Char) : Bool := ('A' ≤ c && c ≤ 'Z') || ('a' ≤ c && c ≤ 'z')
/-- `[0-9]`, `token_kind.rs:20`. -/
def isDigit (c : Char) : Bool := '0' ≤ c && c ≤ '9'
/-- `[A-Za-z0-9]`, `token_kind.rs:17`. -/
def isAlnum (c : Char) : Bool := isLetter c || isDigit c
/-- `.` of `//.*`, `token_kind.rs:56`: any character except a line feed. -/
def isLineChar (c : Char) : Bool := c != '\n'

/-- `#[token("def")]`, `#[token("val")]` before `#[regex("[A-Za-z][A-Za-z0-9]*")]`, `token_kind.rs:11-18`. -/
def wordKind (w : List Char) : TokKind :=
  if w = ['d', 'e', 'f'] then .fnKw else if w = ['v', 'a', 'l'] then .valKw else .ident

/-- One step of the scanner on `c :: s`: kind and text of the token and the rest, `token_kind.rs:6-61`. -/
def lexOne (c : Char) (s : List Char) : TokKind × List Char × List Char :=
  if isBlank c then (.whitespace, c :: s.takeWhile isBlank, s.dropWhile isBlank)
  else if isLetter c then (wordKind (c :: s.takeWhile isAlnum), c :: s.takeWhile isAlnum, s.dropWhile isAlnum)
  else if isDigit c then
    match s.dropWhile isDigit with
    | 'L' :: r => (.longNumber, c :: s.takeWhile isDigit ++ ['L'], r)
    | r => (.intNumber, c :: s.takeWhile isDigit, r)
  else if c = '+' then (.plus, [c], s)
  else if c = '-' then (.minus, [c], s)
  else if c = '*' then (.star, [c], s)
  else if c = '/' then
    match s with
    | '/' :: r => (.comment, c :: '/' :: r.takeWhile isLineChar, r.dropWhile isLineChar)
    | r => (.slash, [c], r)
  else if c = '&' then
    match s with
    | '&' :: r => (.and, [c, '&'], r)
    | r => (.error, [c], r)
  else if c = '=' then (.equals, [c], s)
  else if c = '(' then (.lParen, [c], s)
  else if c = ')' then (.rParen, [c], s)
  else if c = '{' then (.lBrace, [c], s)
  else if c = '}' then (.rBrace, [c], s)
  else (.error, [c], s)

/-- `Lexer::next` again and again, `lexer.rs:26-39`; `n` is the number of calls, `pos` the position in bytes. -/
def lexFrom : Nat → Nat → List Char → List Tok
  | 0, _, _ => []
  | _ + 1, _, [] => []
  | n + 1, pos, c :: s =>
    let (k, t, r) := lexOne c s
    { kind := k, text := t, start := pos } :: lexFrom n (pos + textLen t) r

/-- `Lexer::new(input).collect()`, `parser/parse.rs:17`.  A token has at least one character, so `input.length` calls are enough. -/
def lex (input : List Char) : List Tok := lexFrom input.length 0 input

end Script
end Verif
