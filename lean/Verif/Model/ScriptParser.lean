import Verif.Model.Base
import Verif.Model.ScriptLexer

/-!
# ErgoScript: parser and syntax tree

Source: `ergoscript-compiler/src/parser.rs` and `ergoscript-compiler/src/parser/*.rs`.

The parser writes a list of events; the sink turns the events and the tokens into a tree.  `Source::cursor` and `Sink::cursor` are
the list of tokens that are left.  The drop bomb of `Marker` (`marker.rs:9, 16, 21`) never goes off, for every marker is
completed in the function that made it.  Recursion and loops of the grammar have a budget (`n`); running out of it is a panic,
and `parse` gives a budget that is never used up (theorem `C85_lossless`).  Rust's own limit of the call stack is left out.
-/

namespace Verif
namespace Script

/-- `SyntaxKind`, `syntax.rs:7-32`: the kinds of tokens and of nodes. -/
inductive SynKind where
  | tok (k : TokKind)
  | root | infixExpr | parenExpr | prefixExpr | variableDef
  deriving DecidableEq, Repr

/-- `ParseError`, `parser/parse_error.rs:7-12`. -/
structure ParseErr where
  expected : List TokKind
  found : Option TokKind
  span : Nat × Nat
  deriving DecidableEq, Repr

/-- `Event`, `parser/event.rs:5-14`. -/
inductive Event where
  | startNode (kind : SynKind) (forwardParent : Option Nat)
  | addToken
  | finishNode
  | error (e : ParseErr)
  | placeholder
  deriving DecidableEq, Repr

/-- `Parser` with its `Source`, `parser.rs:26-30`, `parser/source.rs:6-9`: all tokens, those from the cursor on, the events written
so far, the kinds looked for since the last token. -/
structure PState where
  all : List Tok
  rest : List Tok
  events : List Event
  expected : List TokKind
  deriving DecidableEq, Repr

namespace PState

/-- `Source::eat_trivia`, `parser/source.rs:35-43`. -/
def skip (p : PState) : PState := { p with rest := p.rest.dropWhile fun t => t.kind.isTrivia }

/-- The answer of `Parser::peek`, `parser.rs:105-107`, `source.rs:25-28`, once the trivia are eaten. -/
def peek (p : PState) : Option TokKind := p.skip.rest.head?.map Tok.kind

/-- `Parser::at`, `parser.rs:92-95`. -/
def sees (p : PState) (k : TokKind) : Bool × PState :=
  (decide (p.peek = some k), { p.skip with expected := p.expected ++ [k] })

/-- `Parser::at_end`, `parser.rs:101-103`. -/
def atEnd (p : PState) : Bool × PState := (p.peek.isNone, p.skip)

/-- `Parser::bump`, `parser.rs:86-90`, `Source::next_token`, `source.rs:16-23`. -/
def bump (p : PState) : Outcome PState :=
  match p.skip.rest with
  | [] => .panic
  | _ :: r => .ok { p with rest := r, events := p.events ++ [.addToken], expected := [] }

/-- `Parser::start`, `parser.rs:46-51`: the position of the marker. -/
def start (p : PState) : Nat × PState := (p.events.length, { p with events := p.events ++ [.placeholder] })

/-- `Marker::complete`, `parser/marker.rs:20-34`: the position of the completed marker. -/
def complete (p : PState) (pos : Nat) (kind : SynKind) : Outcome (Nat × PState) :=
  match p.events[pos]? with
  | some .placeholder =>
    .ok (pos, { p with events := p.events.set pos (.startNode kind none) ++ [.finishNode] })
  | _ => .panic

/-- `CompletedMarker::precede`, `parser/marker.rs:42-56`. -/
def precede (p : PState) (pos : Nat) : Outcome (Nat × PState) :=
  let (m, p) := p.start
  match p.events[pos]? with
  | some (.startNode kind _) => .ok (m, { p with events := p.events.set pos (.startNode kind (some (m - pos))) })
  | _ => .panic

/-- The error event, `parser.rs:62-76`. -/
def pushError (p : PState) : Outcome PState :=
  let p := p.skip
  match p.rest, p.all.getLast? with
  | t :: _, _ => .ok { p with events := p.events ++ [.error ⟨p.expected, some t.kind, t.range⟩], expected := [] }
  | [], some t => .ok { p with events := p.events ++ [.error ⟨p.expected, none, t.range⟩], expected := [] }
  | [], none => .panic

/-- The token that is skipped, `parser.rs:79-83`. -/
def skipToken (p : PState) : Outcome PState :=
  let (e, p) := p.atEnd
  if e then .ok p
  else do
    let (m, p) := p.start
    let p ← p.bump
    let (_, p) ← p.complete m (.tok .error)
    pure p

/-- `Parser::error`, `parser.rs:61-84`. -/
def error (p : PState) : Outcome PState := do
  let p ← p.pushError
  p.skipToken

/-- `Parser::expect`, `parser.rs:53-59`. -/
def expect (p : PState) (k : TokKind) : Outcome PState :=
  let (b, p) := p.sees k
  if b then p.bump else p.error

/-- `int_number`, `long_number`, `ident`, `grammar/expr.rs:156-184`. -/
def atom (p : PState) (k : TokKind) : Outcome (Nat × PState) :=
  let (b, p) := p.sees k
  if b then do
    let (m, p) := p.start
    let p ← p.bump
    p.complete m (.tok k)
  else .panic

end PState

/-- `BinaryOp`, `grammar/expr.rs:128-133`, also `hir::BinaryOp`, `hir.rs:161-166`. -/
inductive BOp where
  | plus | minus | multiply | divide
  deriving DecidableEq, Repr

/-- `BinaryOp::binding_power`, `grammar/expr.rs:135-142`. -/
def BOp.power : BOp → Nat × Nat
  | .plus | .minus => (1, 2)
  | .multiply | .divide => (3, 4)

/-- `UnaryOp::binding_power`, `grammar/expr.rs:148-154`. -/
def negPower : Nat := 5

namespace PState

/-- The operator at the cursor, `grammar/expr.rs:66-78`. -/
def operator (p : PState) : Option BOp × PState :=
  let (b, p) := p.sees .plus
  if b then (some .plus, p)
  else
    let (b, p) := p.sees .minus
    if b then (some .minus, p)
    else
      let (b, p) := p.sees .star
      if b then (some .multiply, p)
      else
        let (b, p) := p.sees .slash
        if b then (some .divide, p) else (none, p)

mutual

/-- `expr_binding_power`, `grammar/expr.rs:62-104`. -/
def expr : Nat → Nat → PState → Outcome (Option Nat × PState)
  | 0, _, _ => .panic
  | n + 1, min, p => do
    let (l, p) ← lhs n p
    match l with
    | none => pure (none, p)
    | some pos => infixLoop n min pos p

/-- The loop of `expr_binding_power`, `grammar/expr.rs:65-103`. -/
def infixLoop : Nat → Nat → Nat → PState → Outcome (Option Nat × PState)
  | 0, _, _, _ => .panic
  | n + 1, min, pos, p =>
    let (o, p) := p.operator
    match o with
    | none => .ok (some pos, p)
    | some op =>
      if op.power.1 < min then .ok (some pos, p)
      else do
        let p ← p.bump
        let (m, p) ← p.precede pos
        let (r, p) ← expr n op.power.2 p
        let (pos, p) ← p.complete m .infixExpr
        if r.isSome then infixLoop n min pos p else pure (some pos, p)

/-- `lhs`, `grammar/expr.rs:106-126`. -/
def lhs : Nat → PState → Outcome (Option Nat × PState)
  | 0, _ => .panic
  | n + 1, p =>
    let (b, p) := p.sees .intNumber
    if b then do
      let (m, p) ← p.atom .intNumber
      pure (some m, p)
    else
      let (b, p) := p.sees .longNumber
      if b then do
        let (m, p) ← p.atom .longNumber
        pure (some m, p)
      else
        let (b, p) := p.sees .ident
        if b then do
          let (m, p) ← p.atom .ident
          pure (some m, p)
        else
          let (b, p) := p.sees .minus
          if b then prefixExpr n p
          else
            let (b, p) := p.sees .lParen
            if b then parenExpr n p
            else do
              let p ← p.error
              pure (none, p)

/-- `prefix_expr`, `grammar/expr.rs:186-200`. -/
def prefixExpr : Nat → PState → Outcome (Option Nat × PState)
  | 0, _ => .panic
  | n + 1, p =>
    let (b, p) := p.sees .minus
    if b then do
      let (m, p) := p.start
      let p ← p.bump
      let (_, p) ← expr n negPower p
      let (m, p) ← p.complete m .prefixExpr
      pure (some m, p)
    else .panic

/-- `paren_expr`, `grammar/expr.rs:202-211`. -/
def parenExpr : Nat → PState → Outcome (Option Nat × PState)
  | 0, _ => .panic
  | n + 1, p =>
    let (b, p) := p.sees .lParen
    if b then do
      let (m, p) := p.start
      let p ← p.bump
      let (_, p) ← expr n 0 p
      let p ← p.expect .rParen
      let (m, p) ← p.complete m .parenExpr
      pure (some m, p)
    else .panic

end

/-- `variable_def`, `grammar/stmt.rs:11-22`. -/
def variableDef (n : Nat) (p : PState) : Outcome PState :=
  let (b, p) := p.sees .valKw
  if b then do
    let (m, p) := p.start
    let p ← p.bump
    let p ← p.expect .ident
    let p ← p.expect .equals
    let (_, p) ← p.expr n 0
    let (_, p) ← p.complete m .variableDef
    pure p
  else .panic

/-- `stmt`, `grammar/stmt.rs:3-9`. -/
def stmt (n : Nat) (p : PState) : Outcome PState :=
  let (b, p) := p.sees .valKw
  if b then variableDef n p
  else do
    let (_, p) ← p.expr n 0
    pure p

/-- The loop of `root`, `grammar.rs:13-15`. -/
def stmts : Nat → Nat → PState → Outcome PState
  | 0, _, _ => .panic
  | k + 1, n, p =>
    let (e, p) := p.atEnd
    if e then .ok p
    else do
      let p ← p.stmt n
      p.stmts k n

/-- `root`, `grammar.rs:10-18`. -/
def rootNode (k n : Nat) (p : PState) : Outcome PState := do
  let (m, p) := p.start
  let p ← p.stmts k n
  let (_, p) ← p.complete m .root
  pure p

end PState

/-- `Parser::new`, `Parser::parse`, `parser.rs:33-44`.  Three nested calls for each token and a few more are enough for an
expression. -/
def parseEvents (toks : List Tok) : Outcome (List Event) := do
  let p ← PState.rootNode (toks.length + 1) (3 * toks.length + 3) ⟨toks, toks, [], []⟩
  pure p.events

/-- `GreenNode`, `GreenToken` of the crate `rowan`, built by `ergoscript-compiler/src/parser/sink.rs:60-97`. -/
inductive Green where
  | node (kind : SynKind) (children : List Green)
  | token (kind : TokKind) (text : List Char)
  deriving Repr

/-- `Sink`, `parser/sink.rs:10-16`, with the fields of `rowan::GreenNodeBuilder`: the nodes that are open, each with the number
of children before it, the last one first, and the children that wait for their node. -/
structure Sink where
  parents : List (SynKind × Nat)
  children : List Green
  toks : List Tok
  errors : List ParseErr

namespace Sink

/-- `GreenNodeBuilder::start_node` for each kind, `parser/sink.rs:60-63`. -/
def open_ (s : Sink) : List SynKind → Sink
  | [] => s
  | k :: ks => open_ { s with parents := (k, s.children.length) :: s.parents } ks

/-- `Sink::token`, `parser/sink.rs:90-97`. -/
def token (s : Sink) : Outcome Sink :=
  match s.toks with
  | [] => .panic
  | t :: ts => .ok { s with children := s.children ++ [.token t.kind t.text], toks := ts }

/-- `Sink::eat_trivia`, `parser/sink.rs:80-88`. -/
def eatTrivia (s : Sink) : Sink :=
  { s with
    children := s.children ++ (s.toks.takeWhile fun t => t.kind.isTrivia).map fun t => .token t.kind t.text
    toks := s.toks.dropWhile fun t => t.kind.isTrivia }

/-- `GreenNodeBuilder::finish_node`, used at `ergoscript-compiler/src/parser/sink.rs:66`. -/
def close (s : Sink) : Outcome Sink :=
  match s.parents with
  | [] => .panic
  | (k, i) :: ps => .ok { s with parents := ps, children := s.children.take i ++ [.node k (s.children.drop i)] }

/-- The walk through the forward parents, `parser/sink.rs:36-58`: the kinds and the events that are left, with placeholders for
the visited ones.  `i` is the position among the events after the current one; the budget `n` is their number. -/
def walk : Nat → Nat → Option Nat → List Event → Outcome (List SynKind × List Event)
  | _, _, none, evs => .ok ([], evs)
  | 0, _, some _, _ => .panic
  | n + 1, i, some fp, evs =>
    match i + fp with
    | 0 => .panic
    | j + 1 =>
      match evs[j]? with
      | some (.startNode k fp') => do
        let (ks, evs) ← walk n (j + 1) fp' (evs.set j .placeholder)
        pure (k :: ks, evs)
      | _ => .panic

/-- One event, `parser/sink.rs:31-69`; `evs` are the events after it. -/
def step (s : Sink) (e : Event) (evs : List Event) : Outcome (Sink × List Event) :=
  match e with
  | .startNode k fp => do
    let (ks, evs) ← walk evs.length 0 fp evs
    pure (s.open_ (k :: ks).reverse, evs)
  | .addToken => do
    let s ← s.token
    pure (s, evs)
  | .finishNode => do
    let s ← s.close
    pure (s, evs)
  | .error e => .ok ({ s with errors := s.errors ++ [e] }, evs)
  | .placeholder => .ok (s, evs)

/-- The loop of `Sink::finish`, `parser/sink.rs:29-72`. -/
def run : Nat → List Event → Sink → Outcome Sink
  | _, [], s => .ok s
  | 0, _ :: _, _ => .panic
  | n + 1, e :: evs, s => do
    let (s, evs) ← s.step e evs
    run n evs s.eatTrivia

/-- `GreenNodeBuilder::finish`, `parser/sink.rs:74-77`. -/
def result (s : Sink) : Outcome (Green × List ParseErr) :=
  match s.children with
  | [.node k cs] => .ok (.node k cs, s.errors)
  | _ => .panic

end Sink

/-- `Sink::finish`, `parser/sink.rs:29-78`. -/
def sink (toks : List Tok) (evs : List Event) : Outcome (Green × List ParseErr) := do
  let s ← Sink.run evs.length evs ⟨[], [], toks, []⟩
  s.result

/-- `parse`, `parser/parse.rs:16-24`. -/
def parse (input : List Char) : Outcome (Green × List ParseErr) := do
  let evs ← parseEvents (lex input)
  sink (lex input) evs

end Script
end Verif
