import Verif.Model.Nipopow

/-!
# Specification of interlinks, proofs of proof-of-work and their comparison
-/

namespace Verif.Spec
open Verif
variable {G : Type}

/-- A vector written out from its runs `(count, id)`. -/
def expandRuns (rs : List (Nat × Bytes)) : List Bytes := rs.flatMap fun r => List.replicate r.1 r.2

/-- `rs` are runs: none is empty, neighbours have different ids, every id has 32 bytes. -/
structure Runs (rs : List (Nat × Bytes)) : Prop where
  pos : ∀ r ∈ rs, 1 ≤ r.1
  id : ∀ r ∈ rs, r.2.length = 32
  distinct : rs.IsChain fun a b => a.2 ≠ b.2

/-- The entry of an interlink vector for level `μ ≥ 1`: vectors are stored highest level first, genesis at the front. -/
def slot (links : List Bytes) (μ : Nat) : Option Bytes := links[links.length - μ]?

/-- `lv` gives the levels of headers that are not the first of the chain; none is negative. -/
def Levels (W : Pow) (lv : Header G → Nat) (hs : List (Header G)) : Prop :=
  ∀ h ∈ hs, h.height ≠ 1 ∧ ∃ l, W.maxLevel h = .ok l ∧ l.toInt = lv h

/-- Interlink vector obtained by going through headers in order. -/
def linksAfter (W : Pow) : List Bytes → List (Header G) → Outcome (List Bytes)
  | links, [] => .ok links
  | links, h :: hs => updateInterlinks W h links >>= fun l => linksAfter W l hs

/-- Heights strictly increase. -/
def Rising (c : List (Header G)) : Prop := c.Pairwise fun a b => a.height.toNat < b.height.toNat

/-- `h` is the highest header that both chains have. -/
def HighestCommon (left right : List (Header G)) (h : Header G) : Prop :=
  h ∈ left ∧ h ∈ right ∧ ∀ x, x ∈ left → x ∈ right → x.height.toNat ≤ h.height.toNat

/-- How many of the levels are at least `μ`. -/
def atLeast (lv : List Nat) (μ : Nat) : Nat := lv.countP fun l => decide (μ ≤ l)

/-- `x` is the best score of a chain with these levels: `2^μ * |C↑μ|` for level 0 or a level with `m` blocks or more. -/
structure BestScore (lv : List Nat) (m x : Nat) : Prop where
  reached : ∃ μ, (μ = 0 ∨ m ≤ atLeast lv μ) ∧ x = 2 ^ μ * atLeast lv μ
  bound : ∀ μ, μ = 0 ∨ m ≤ atLeast lv μ → 2 ^ μ * atLeast lv μ ≤ x

/-- A chain as a full node has it: from the first block on, every block links to the one before by parent id and by the
interlink vector that results from it; `lv` gives the levels, none is negative; the interlinks are proved. -/
structure FullChain (mode : Mode) (W : Pow) (lv : PoPowHeader G → Nat) (c : List (PoPowHeader G)) : Prop where
  heights : ∀ (i : Nat) p, c[i]? = some p → p.header.height.toNat = i + 1
  parents : ∀ (i : Nat) p q, c[i]? = some p → c[i + 1]? = some q → q.header.parentId = p.header.id
  levels : ∀ p ∈ c, ∃ l, W.maxLevel p.header = .ok l ∧ l.toInt = lv p
  links : ∀ (i : Nat) p q, c[i]? = some p → c[i + 1]? = some q → updateInterlinks W p.header p.interlinks = .ok q.interlinks
  checked : ∀ p ∈ c, p.checkInterlinks mode W.H = .ok true

end Verif.Spec
