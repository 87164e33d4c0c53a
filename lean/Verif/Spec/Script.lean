import Verif.Model.ScriptParser

/-!
# ErgoScript: what the tokens and the syntax of a text should be

Only the types of tokens and trees are taken from the model; no routine of its scanner or of its parser.
-/

namespace Verif
namespace ScriptSpec
open Script (TokKind Tok SynKind Green BOp)

/-! ## Tokens -/

/-- A character of an identifier. -/
def WordChar (c : Char) : Prop := c.isAlpha = true ∨ c.isDigit = true

/-- The texts of each kind of token (`lexer/token_kind.rs:7-58`). -/
def Lexeme : TokKind → List Char → Prop
  | .whitespace, t => t ≠ [] ∧ ∀ c ∈ t, c = ' ' ∨ c = '\n'
  | .fnKw, t => t = "def".toList
  | .valKw, t => t = "val".toList
  | .ident, t => ∃ c r, t = c :: r ∧ c.isAlpha = true ∧ ∀ x ∈ r, WordChar x
  | .intNumber, t => t ≠ [] ∧ ∀ c ∈ t, c.isDigit = true
  | .longNumber, t => ∃ s, t = s ++ ['L'] ∧ s ≠ [] ∧ ∀ c ∈ s, c.isDigit = true
  | .plus, t => t = ['+']
  | .minus, t => t = ['-']
  | .star, t => t = ['*']
  | .slash, t => t = ['/']
  | .and, t => t = ['&', '&']
  | .equals, t => t = ['=']
  | .lParen, t => t = ['(']
  | .rParen, t => t = [')']
  | .lBrace, t => t = ['{']
  | .rBrace, t => t = ['}']
  | .comment, t => ∃ r, t = '/' :: '/' :: r ∧ '\n' ∉ r
  | .error, _ => False

/-- Keywords are no identifiers. -/
def Keyword (t : List Char) : Prop := t = "def".toList ∨ t = "val".toList

/-- The first token of `input` is `t` of kind `k`: the longest text of any kind with which `input` begins, or, if there is none, a
single character of kind `error`. -/
def Next (input : List Char) (k : TokKind) (t rest : List Char) : Prop :=
  input = t ++ rest ∧
    ((Lexeme k t ∧ (k = .ident → ¬ Keyword t) ∧ ∀ k' t' rest', input = t' ++ rest' → Lexeme k' t' → t'.length ≤ t.length) ∨
     (k = .error ∧ t.length = 1 ∧ ∀ k' t' rest', input = t' ++ rest' → ¬ Lexeme k' t'))

/-- The bytes of a text in UTF-8. -/
def bytes (t : List Char) : Nat := (t.map Char.utf8Size).sum

/-- `toks` are the tokens of a text that starts at byte `pos`. -/
inductive Tokens : Nat → List Char → List Tok → Prop where
  | nil (pos : Nat) : Tokens pos [] []
  | cons (pos : Nat) (input : List Char) (k : TokKind) (t rest : List Char) (ts : List Tok)
      (h : Next input k t rest) (hr : Tokens (pos + bytes t) rest ts) : Tokens pos input (⟨k, t, pos⟩ :: ts)

/-- White space and comments. -/
def Silent (k : TokKind) : Prop := k = .whitespace ∨ k = .comment

/-- The tokens of a text which matter: kinds and texts of those that are not silent. -/
inductive Words : List Tok → List (TokKind × List Char) → Prop where
  | nil : Words [] []
  | skip (t : Tok) (ts : List Tok) (ws : List (TokKind × List Char)) (h : Silent t.kind) (hr : Words ts ws) : Words (t :: ts) ws
  | keep (t : Tok) (ts : List Tok) (ws : List (TokKind × List Char)) (h : ¬ Silent t.kind) (hr : Words ts ws) :
      Words (t :: ts) ((t.kind, t.text) :: ws)

/-- The words of a source text. -/
def Reads (src : List Char) (ws : List (TokKind × List Char)) : Prop := ∃ ts, Tokens 0 src ts ∧ Words ts ws

/-! ## Grammar -/

/-- Expressions. -/
inductive Ex where
  | int (s : List Char)
  | long (s : List Char)
  | ident (s : List Char)
  | neg (x : Ex)
  | paren (x : Ex)
  | bin (op : BOp) (l r : Ex)
  deriving DecidableEq, Repr

/-- Statements. -/
inductive St where
  | expr (x : Ex)
  | val (name : List Char) (x : Ex)
  deriving DecidableEq, Repr

/-- The token of an operator. -/
def opWord : BOp → TokKind × List Char
  | .plus => (.plus, ['+'])
  | .minus => (.minus, ['-'])
  | .multiply => (.star, ['*'])
  | .divide => (.slash, ['/'])

/-- The words of an expression. -/
def Ex.words : Ex → List (TokKind × List Char)
  | .int s => [(.intNumber, s)]
  | .long s => [(.longNumber, s)]
  | .ident s => [(.ident, s)]
  | .neg x => (.minus, ['-']) :: x.words
  | .paren x => (.lParen, ['(']) :: (x.words ++ [(.rParen, [')'])])
  | .bin op l r => l.words ++ opWord op :: r.words

/-- The words of a statement. -/
def St.words : St → List (TokKind × List Char)
  | .expr x => x.words
  | .val n x => (.valKw, "val".toList) :: (.ident, n) :: (.equals, ['=']) :: x.words

/-- Sums bind weaker than products. -/
def prec : BOp → Nat
  | .plus | .minus => 1
  | .multiply | .divide => 2

/-- How strongly an expression holds together: sums 1, products 2, everything else 3. -/
def Ex.level : Ex → Nat
  | .bin op _ _ => prec op
  | _ => 3

/-- Products of sums need parentheses, operators of the same strength group to the left, and a minus sign applies to the shortest
operand. -/
def Ex.Ok : Ex → Prop
  | .int _ | .long _ | .ident _ => True
  | .neg x => x.Ok ∧ x.level = 3
  | .paren x => x.Ok
  | .bin op l r => l.Ok ∧ r.Ok ∧ prec op ≤ l.level ∧ prec op < r.level

/-- The expression of a statement. -/
def St.body : St → Ex
  | .expr x => x
  | .val _ x => x

/-- The statement begins with a minus sign. -/
def St.Minus (s : St) : Prop := ∃ ws, s.words = (.minus, ['-']) :: ws

/-- A program: statements one after the other.  A statement that begins with a minus sign can only be the first one, else the sign
belongs to the statement before. -/
def Program : List St → Prop
  | [] => True
  | s :: ss => s.body.Ok ∧ ∀ s' ∈ ss, s'.body.Ok ∧ ¬ s'.Minus

/-- The words of a program. -/
def words (ss : List St) : List (TokKind × List Char) := ss.flatMap St.words

/-! ## Trees -/

/-- A leaf. -/
def word (w : TokKind × List Char) : Green := .token w.1 w.2

/-- The tree of an expression, without silent tokens. -/
def Ex.tree : Ex → Green
  | .int s => .node (.tok .intNumber) [.token .intNumber s]
  | .long s => .node (.tok .longNumber) [.token .longNumber s]
  | .ident s => .node (.tok .ident) [.token .ident s]
  | .neg x => .node .prefixExpr [.token .minus ['-'], x.tree]
  | .paren x => .node .parenExpr [.token .lParen ['('], x.tree, .token .rParen [')']]
  | .bin op l r => .node .infixExpr [l.tree, word (opWord op), r.tree]

/-- The tree of a statement. -/
def St.tree : St → Green
  | .expr x => x.tree
  | .val n x => .node .variableDef [.token .valKw "val".toList, .token .ident n, .token .equals ['='], x.tree]

/-- The tree of a program. -/
def tree (ss : List St) : Green := .node .root (ss.map St.tree)

mutual
/-- A tree without its silent tokens. -/
def strip : Green → Green
  | .node k cs => .node k (strips cs)
  | .token k t => .token k t
/-- The same for a row of trees. -/
def strips : List Green → List Green
  | [] => []
  | .token .whitespace _ :: gs => strips gs
  | .token .comment _ :: gs => strips gs
  | g :: gs => strip g :: strips gs
end

mutual
/-- The text of a tree. -/
def text : Green → List Char
  | .node _ cs => texts cs
  | .token _ t => t
/-- The text of a row of trees. -/
def texts : List Green → List Char
  | [] => []
  | g :: gs => text g ++ texts gs
end

end ScriptSpec
end Verif
