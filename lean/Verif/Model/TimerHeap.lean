import Verif.Model.Base

/-!
# The heap of timers

Source: `ergo-rest/src/wasm_timer/timer/heap.rs`.

A binary heap whose elements can be removed by the slot they got when pushed.  `T: Ord` is a type with a Boolean comparison
`le a b` (`a <= b`); `a >= b` is `le b a` and `a < b` is `!le b a`.  A panic of the code (`panic!`, an index out of range, a failed
`debug_assert_eq!`) is `Outcome.panic`.
-/

namespace Verif
namespace TimerHeap

/-- An entry of the slab, `heap.rs:24-27`. -/
inductive SlabSlot where
  | empty (next : Nat)
  | full (value : Nat)
  deriving DecidableEq, Repr

/-- `Heap<T>`, `heap.rs:13-22`.  Simplification: `usize` is unbounded. -/
structure Heap (T : Type) where
  items : List (T × Nat)
  index : List SlabSlot
  next : Nat
  deriving DecidableEq, Repr

variable {T : Type} (le : T → T → Bool)

/-- `Heap::new`, `heap.rs:34-40`. -/
def Heap.new : Heap T := ⟨[], [], 0⟩

/-- `set_index`, `heap.rs:217-222`. -/
def setIndex (slab : List SlabSlot) (slot val : Nat) : Outcome (List SlabSlot) :=
  match slab[slot]? with
  | some (.full _) => .ok (slab.set slot (.full val))
  | some (.empty _) => .panic
  | none => .panic

/-- The swap of the items at `i < j` with the update of both slab entries, `heap.rs:115-118` (`i` the parent) and
`heap.rs:155-162` (`j` the child; `a.len()` is `j`). -/
def Heap.swap (h : Heap T) (i j : Nat) : Outcome (Heap T) :=
  match h.items[i]?, h.items[j]? with
  | some a, some b => do
    let ix ← setIndex h.index b.2 i
    let ix ← setIndex ix a.2 j
    .ok ⟨(h.items.set i b).set j a, ix, h.next⟩
  | _, _ => .panic

/-- The loop of `percolate_up`, `heap.rs:110-121`, bounded by `fuel`; running out of it is a panic of the model, so that the absence
of panics shows that the bound is never met. -/
def Heap.upLoop : Nat → Heap T → Nat → Outcome (Heap T)
  | 0, _, _ => .panic
  | fuel + 1, h, idx =>
    if 0 < idx then
      match h.items[idx]?, h.items[(idx - 1) / 2]? with
      | some x, some p =>
        if le p.1 x.1 then .ok h
        else
          match h.swap ((idx - 1) / 2) idx with
          | .ok h' => h'.upLoop fuel ((idx - 1) / 2)
          | .err => .err
          | .panic => .panic
      | _, _ => .panic
    else .ok h

/-- `percolate_up`, `heap.rs:109-122`.  The returned position, which no caller uses, is left out. -/
def Heap.percolateUp (h : Heap T) (idx : Nat) : Outcome (Heap T) := Heap.upLoop le (idx + 1) h idx

/-- Which child `percolate_down` swaps with: `none` is the `break`, `heap.rs:131-153`.  Given the items at `left`, `right` and
`idx`. -/
def pickChild (left right : Option T) (x : T) (l r : Nat) : Outcome (Option Nat) :=
  match left, right with
  | some a, none => if le x a then .ok none else .ok (some l)
  | some a, some b =>
    if !le x a then
      if !le a b then .ok (some r) else .ok (some l)
    else if !le x b then .ok (some r)
    else .ok none
  | none, none => .ok none
  | none, some _ => .panic

/-- `percolate_down`, `heap.rs:125-166`.  The loop is bounded by `fuel`; running out of it is a panic of the model, so that the
absence of panics shows that the bound is never met.  The position is not checked when there are no children, as in the code. -/
def Heap.percolateDown : Nat → Heap T → Nat → Outcome (Heap T)
  | 0, _, _ => .panic
  | fuel + 1, h, idx =>
    match h.items[idx]? with
    | some x =>
      match pickChild le (h.items[2 * idx + 1]?.map Prod.fst) (h.items[2 * idx + 2]?.map Prod.fst) x.1 (2 * idx + 1)
          (2 * idx + 2) with
      | .ok none => .ok h
      | .ok (some c) =>
        match h.swap idx c with
        | .ok h' => h'.percolateDown fuel c
        | .err => .err
        | .panic => .panic
      | .err => .err
      | .panic => .panic
    | none => .panic

/-- `push`, `heap.rs:48-66`: the slot and the heap after. -/
def Heap.push (h : Heap T) (t : T) : Outcome (Nat × Heap T) :=
  if h.next = h.index.length then do
    let h' ← Heap.percolateUp le ⟨h.items ++ [(t, h.index.length)], h.index ++ [.full h.items.length], h.next + 1⟩ h.items.length
    .ok (h.index.length, h')
  else
    match h.index[h.next]? with
    | some (.empty n) => do
      let h' ← Heap.percolateUp le ⟨h.items ++ [(t, h.next)], h.index.set h.next (.full h.items.length), n⟩ h.items.length
      .ok (h.next, h')
    | some (.full _) => .panic
    | none => .panic

/-- `peek`, `heap.rs:68-71`. -/
def Heap.peek (h : Heap T) : Option T := h.items[0]?.map Prod.fst

/-- `Vec::swap_remove`: the element at `i` is taken out and the last element takes its place; `none` is the panic,
`ergo-rest/src/wasm_timer/timer/heap.rs:95`. -/
def swapRemove {α : Type} (l : List α) (i : Nat) : Option (α × List α) :=
  match l[i]?, l[l.length - 1]? with
  | some a, some z => some (a, (l.set i z).dropLast)
  | _, _ => none

/-- Up or down from `idx`, `heap.rs:99-103`; `up` is `self.items[idx].0 < item`. -/
def Heap.settle (h : Heap T) (idx : Nat) (up : Bool) : Outcome (Heap T) :=
  if up then h.percolateUp le idx else Heap.percolateDown le h.items.length h idx

/-- `remove`, `heap.rs:85-107`: the element and the heap after. -/
def Heap.remove (h : Heap T) (slot : Nat) : Outcome (T × Heap T) :=
  match h.index[slot]? with
  | some (.full idx) =>
    match swapRemove h.items idx with
    | some ((item, slotIdx), items) =>
      if slot ≠ slotIdx then .panic
      else
        match items[idx]? with
        | some y => do
          let ix ← setIndex (h.index.set slot (.empty h.next)) y.2 idx
          let h' ← Heap.settle le ⟨items, ix, slot⟩ idx (!le item y.1)
          .ok (item, h')
        | none => .ok (item, ⟨items, h.index.set slot (.empty h.next), slot⟩)
    | none => .panic
  | some (.empty _) => .panic
  | none => .panic

/-- `pop`, `heap.rs:73-82`. -/
def Heap.pop (h : Heap T) : Outcome (Option T × Heap T) :=
  match h.items[0]? with
  | none => .ok (none, h)
  | some x => do
    let (t, h') ← h.remove le x.2
    .ok (some t, h')

/-- `assert_consistent`, `heap.rs:169-213`, with the configuration flag on: the checks that would panic. -/
def Heap.consistent (h : Heap T) : Bool :=
  (h.items.length == (h.index.filter fun s => match s with | .full _ => true | .empty _ => false).length) &&
  (List.range h.items.length).all (fun i =>
    match h.items[i]? with
    | some (_, j) => (match h.index[j]? with | some (.full v) => v == i | _ => false)
    | none => false) &&
  (List.range h.items.length).all (fun i =>
    match h.items[i]? with
    | some (x, _) =>
      (if 0 < i then (match h.items[(i - 1) / 2]? with | some (p, _) => le p x | none => false) else true) &&
      (match h.items[2 * i + 1]? with | some (l, _) => le x l | none => true) &&
      (match h.items[2 * i + 2]? with | some (r, _) => le x r | none => true)
    | none => false)

end TimerHeap
end Verif
