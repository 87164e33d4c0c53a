import Verif.Model.TimerHeap

/-!
# What a heap with removable elements should do

A store of elements under slot numbers.  Nothing here mentions how the heap is laid out, except for the last two definitions, which
run the model.
-/

namespace Verif
namespace Spec
namespace TimerHeap

/-- The elements of the store, by slot. -/
abbrev Store (T : Type) := Nat → Option T

/-- A call on the heap. -/
inductive Op (T : Type) where
  | push (t : T)
  | peek
  | pop
  | remove (slot : Nat)
  deriving DecidableEq, Repr

/-- What a call returns. -/
inductive Out (T : Type) where
  | slot (s : Nat)
  | elem (t : T)
  | head (t : Option T)
  deriving DecidableEq, Repr

variable {T : Type}

/-- `t` is stored and nothing stored comes before it. -/
def Least (le : T → T → Bool) (m : Store T) (s : Nat) (t : T) : Prop := m s = some t ∧ ∀ s' t', m s' = some t' → le t t' = true

/-- What a call on the store may return and how it changes the store. -/
inductive Step (le : T → T → Bool) : Store T → Op T → Out T → Store T → Prop where
  /-- A free slot is chosen. -/
  | push (m : Store T) (t : T) (s : Nat) (h : m s = none) : Step le m (.push t) (.slot s) (fun k => if k = s then some t else m k)
  | peekNone (m : Store T) (h : ∀ s, m s = none) : Step le m .peek (.head none) m
  | peek (m : Store T) (s : Nat) (t : T) (h : Least le m s t) : Step le m .peek (.head (some t)) m
  | popNone (m : Store T) (h : ∀ s, m s = none) : Step le m .pop (.head none) m
  /-- A least element is taken out. -/
  | pop (m : Store T) (s : Nat) (t : T) (h : Least le m s t) :
      Step le m .pop (.head (some t)) (fun k => if k = s then none else m k)
  /-- What is taken out is what is stored under the slot. -/
  | remove (m : Store T) (s : Nat) (t : T) (h : m s = some t) :
      Step le m (.remove s) (.elem t) (fun k => if k = s then none else m k)

/-- A sequence of calls. -/
inductive Steps (le : T → T → Bool) : Store T → List (Op T × Out T) → Store T → Prop where
  | nil (m : Store T) : Steps le m [] m
  | cons {m m' m'' : Store T} {o : Op T} {r : Out T} {l : List (Op T × Out T)} :
      Step le m o r m' → Steps le m' l m'' → Steps le m ((o, r) :: l) m''

/-- The comparison is a total preorder: what `Ord` promises. -/
structure TotalPre (le : T → T → Bool) : Prop where
  total : ∀ a b, le a b = true ∨ le b a = true
  trans : ∀ a b c, le a b = true → le b c = true → le a c = true

/-- The store a heap stands for: a slot that is in use leads to an element. -/
def contents (h : Verif.TimerHeap.Heap T) : Store T := fun s =>
  match h.index[s]? with
  | some (.full i) => h.items[i]?.map Prod.fst
  | _ => none

/-- One call on the model. -/
def call (le : T → T → Bool) (h : Verif.TimerHeap.Heap T) : Op T → Outcome (Out T × Verif.TimerHeap.Heap T)
  | .push t => do
    let (s, h') ← h.push le t
    .ok (.slot s, h')
  | .peek => .ok (.head h.peek, h)
  | .pop => do
    let (t, h') ← h.pop le
    .ok (.head t, h')
  | .remove s => do
    let (t, h') ← h.remove le s
    .ok (.elem t, h')

/-- A sequence of calls on the model: what they return, and the heap after. -/
def calls (le : T → T → Bool) (h : Verif.TimerHeap.Heap T) : List (Op T) → Outcome (List (Op T × Out T) × Verif.TimerHeap.Heap T)
  | [] => .ok ([], h)
  | o :: l => do
    let (r, h') ← call le h o
    let (rs, h'') ← calls le h' l
    .ok ((o, r) :: rs, h'')

end TimerHeap
end Spec
end Verif
