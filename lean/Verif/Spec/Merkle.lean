import Verif.Model.Merkle

/-!
# Merkle trees (specification)

A tree is described level by level: level 0 holds the leaf hashes, each following level pairs up neighbours; a last
element without neighbour is hashed alone.  The root is the single hash of the first such level above the leaves.
-/

namespace Verif.Spec
open Verif Merkle

/-- Inputs hashed when going from one level to the next. -/
def pairPres : List Bytes → List Bytes
  | a :: b :: r => nodePre (some a) (some b) :: pairPres r
  | [a] => [nodePre (some a) none]
  | [] => []

/-- The `k`-th level, counted from the leaves. -/
def level (H : HashFn) (leaves : List Bytes) : Nat → List Bytes
  | 0 => leaves.map (fun d => H (leafPre d))
  | k + 1 => (pairPres (level H leaves k)).map H

/-- All byte strings hashed while building the first `k` levels above the leaves. -/
def treeInputs (H : HashFn) (leaves : List Bytes) (k : Nat) : List Bytes :=
  leaves.map leafPre ++ (List.range k).flatMap (fun j => pairPres (level H leaves j))

/-- `r` is the root of the tree over `leaves` and lies `depth` levels above the leaves. -/
def IsRoot (H : HashFn) (leaves : List Bytes) (depth : Nat) (r : Bytes) : Prop :=
  1 ≤ depth ∧ (depth = 1 ∨ 2 ≤ (level H leaves (depth - 1)).length) ∧ level H leaves depth = [r]

/-- 1 if the proof continues from a right child. -/
def bitOf (l : LevelNode) : Nat :=
  match l.hash, l.side with
  | some _, .right => 1
  | _, _ => 0

/-- The position spelled out by the sides of a single proof, lowest level first.  A level without sibling hash always
continues from a left child. -/
def posOf : List LevelNode → Nat
  | [] => 0
  | l :: ls => bitOf l + 2 * posOf ls

/-- All byte strings hashed while checking a single proof from the running hash `prev`. -/
def levelInputs (H : HashFn) (prev : Bytes) : List LevelNode → List Bytes
  | [] => []
  | l :: ls => levelPre prev l :: levelInputs H (H (levelPre prev l)) ls

/-- All byte strings hashed while checking a single proof. -/
def proofInputs (H : HashFn) (p : Proof) : List Bytes :=
  leafPre p.leafData :: levelInputs H (H (leafPre p.leafData)) p.levels

/-- The hashes in a proof are 32 bytes long (`Digest32`). -/
def LevelsOk (ls : List LevelNode) : Prop := ∀ l ∈ ls, ∀ h, l.hash = some h → h.length = 32

/-- Byte strings hashed in one round of checking a batch proof. -/
def roundInputs (H : HashFn) : List ((Nat × Nat) × Bytes) → List LevelNode → List Bytes
  | [], _ => []
  | [(_, e)], m =>
    match m with
    | [] => []
    | head :: _ => [headPre e head]
  | (b1, e1) :: (b2, e2) :: rest, m =>
    if b1 = b2 then nodePre (some e1) (some e2) :: roundInputs H rest m
    else
      match m with
      | [] => []
      | head :: m => headPre e1 head :: roundInputs H ((b2, e2) :: rest) m
termination_by l => l.length

/-- Byte strings hashed while checking a batch proof, in at most `rounds` rounds. -/
def batchRounds (H : HashFn) : Nat → List Nat → List Indexed → List LevelNode → List Bytes
  | 0, _, _, _ => []
  | rounds + 1, a, e, m =>
    let l := (a.map pairOf).zip (e.map Indexed.hash)
    roundInputs H l m ++
      match validateLevel H l m with
      | none => []
      | some (eNew, mNew) =>
        let aNew := toSet ((a.map pairOf).map (fun b => b.2 / 2))
        batchRounds H rounds aNew ((aNew.zip eNew).map (fun p => { index := p.1, hash := p.2 })) mNew

/-- Byte strings hashed while checking a batch proof (a superset: the rounds after the last one are included). -/
def batchInputs (H : HashFn) (p : Batch) : List Bytes :=
  let e := sortByIndex p.indices
  batchRounds H (p.indices.length + p.proofs.length) (e.map Indexed.index) e p.proofs

/-- All hashes listed in a batch proof are 32 bytes long (`Digest32`). -/
def BatchOk (p : Batch) : Prop := (∀ x ∈ p.indices, x.hash.length = 32) ∧ LevelsOk p.proofs

end Verif.Spec
