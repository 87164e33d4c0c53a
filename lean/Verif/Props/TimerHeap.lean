import Verif.Proofs.TimerHeapMore

/-!
# C82: the heap of timers

`heap.rs`, used by `Timer` to know which delay is due next and to move or remove one by its slot.
-/

set_option linter.unusedSimpArgs false
set_option linter.unusedVariables false

namespace Verif
namespace Props
open TimerHeap Spec.TimerHeap

variable {T : Type} {le : T → T → Bool}

/-- C82.  Whatever calls are made on a new heap, in whatever order: if none panics, every result is one that a store of elements under
slot numbers allows – a push uses a free slot, a peek and a pop give a least element, a removal by slot gives the element that was
pushed there – and the heap holds exactly what the store holds. -/
theorem C82_refines (L : TotalPre le) (ops : List (Op T)) (rs : List (Op T × Out T)) (h : Heap T)
    (hr : calls le Heap.new ops = .ok (rs, h)) :
    rs.map Prod.fst = ops ∧ Steps le (fun _ => none) rs (contents h) ∧
      (∀ s t, contents h s = some t ↔ (t, s) ∈ h.items) := by
  have h0 : contents (Heap.new : Heap T) = fun _ => none := by funext s; simp [contents, Heap.new]
  rcases calls_spec L ops Heap.new inv_new with ⟨rs', h', e, hi, hs, hm⟩ | ⟨e, _⟩
  · rw [hr] at e
    simp only [Outcome.ok.injEq, Prod.mk.injEq] at e
    obtain ⟨rfl, rfl⟩ := e
    rw [h0] at hs
    exact ⟨hm, hs, contents_iff hi.link⟩
  · rw [hr] at e; cases e

/-- C82.  The calls never fail, and they panic exactly if one of them removes a slot that is not in use then. -/
theorem C82_panic (L : TotalPre le) (ops : List (Op T)) :
    calls le Heap.new ops ≠ .err ∧
    (calls le Heap.new ops = .panic ↔ ∃ pre s post rs h, ops = pre ++ .remove s :: post ∧ calls le Heap.new pre = .ok (rs, h) ∧
      contents h s = none) := by
  rcases calls_spec L ops Heap.new inv_new with ⟨rs', h', e, hi, hs, hm⟩ | ⟨e, hd⟩
  · refine ⟨by rw [e]; simp, by rw [e]; simp, ?_⟩
    rintro ⟨pre, s, post, rs, h, rfl, h1, h2⟩
    rw [calls_append, h1]
    have hinv : Inv le h := by
      rcases calls_spec L pre Heap.new inv_new with ⟨rs', h', e, hi, _, _⟩ | ⟨e, _⟩
      · rw [h1] at e
        simp only [Outcome.ok.injEq, Prod.mk.injEq] at e
        obtain ⟨_, rfl⟩ := e
        exact hi
      · rw [h1] at e; cases e
    simp [calls, call, remove_panic hinv.link h2]
  · exact ⟨by rw [e]; simp, fun _ => hd, fun _ => e⟩

/-- C82.  The consistency check of the code would pass after every call. -/
theorem C82_consistent (L : TotalPre le) (ops : List (Op T)) (rs : List (Op T × Out T)) (h : Heap T)
    (hr : calls le Heap.new ops = .ok (rs, h)) : h.consistent le = true := by
  rcases calls_spec L ops Heap.new inv_new with ⟨rs', h', e, hi, _, _⟩ | ⟨e, _⟩
  · rw [hr] at e
    simp only [Outcome.ok.injEq, Prod.mk.injEq] at e
    obtain ⟨_, rfl⟩ := e
    exact inv_consistent hi
  · rw [hr] at e; cases e

/-- C82.  Elements that are pushed and then popped come out sorted, none lost and none twice. -/
theorem C82_sorted (L : TotalPre le) (l : List T) :
    ∃ (slots : List Nat) (out : List T) (h : Heap T),
      calls le Heap.new (l.map .push ++ List.replicate l.length .pop) =
        .ok (List.zipWith (fun t s => (Op.push t, Out.slot s)) l slots ++ out.map (fun t => (Op.pop, Out.head (some t))), h) ∧
      slots.length = l.length ∧ out.Perm l ∧ out.Pairwise (fun a b => le a b = true) := by
  obtain ⟨slots, h1, e1, hl, hi1, p1⟩ := pushes_spec L l Heap.new inv_new
  have p1' : (h1.items.map Prod.fst).Perm l := by simpa [Heap.new] using p1
  obtain ⟨out, h2, e2, p2, hs⟩ := pops_spec L l.length h1 hi1 (by simpa using p1'.length_eq)
  exact ⟨slots, out, h2, by simp [calls_append, e1, e2], hl, p2.trans p1', hs⟩

/-- The comparison of numbers used in the examples. -/
def natLe (a b : Nat) : Bool := decide (a ≤ b)

theorem natLe_total : TotalPre natLe :=
  ⟨fun a b => by simp only [natLe, decide_eq_true_eq]; omega, fun a b c => by simp only [natLe, decide_eq_true_eq]; omega⟩

/-- Three elements are pushed, the one in the middle of the heap is removed by its slot, the rest is popped. -/
example : ∃ h, calls natLe Heap.new [.push 5, .push 3, .push 4, .remove 2, .pop, .peek, .push 1, .pop] =
    .ok ([(.push 5, .slot 0), (.push 3, .slot 1), (.push 4, .slot 2), (.remove 2, .elem 4), (.pop, .head (some 3)),
      (.peek, .head (some 5)), (.push 1, .slot 1), (.pop, .head (some 1))], h) := by
  exact ⟨_, rfl⟩

/-- C82, what the caller has to see to: a slot is used again after its element is gone, and a removal by an old slot takes out the new
element. -/
theorem C82_stale_slot : ∃ h, calls natLe Heap.new [.push 5, .pop, .push 7, .remove 0] =
    .ok ([(.push 5, .slot 0), (.pop, .head (some 5)), (.push 7, .slot 0), (.remove 0, .elem 7)], h) := by
  exact ⟨_, rfl⟩

/-- A removal from a slot never used panics. -/
example : calls natLe Heap.new [.push 5, .remove 3] = .panic := rfl

end Props
end Verif
