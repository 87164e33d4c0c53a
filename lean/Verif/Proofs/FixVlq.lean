import Verif.Model.Fix
import Verif.Model.Vlq
import Verif.Model.EcPoint

/-! Readers of integers and points never lengthen the stream. -/

namespace Verif

theorem getU64Loop_length : ∀ (s : Bytes) (sh : Nat) (acc v : BitVec 64) (r : Bytes),
    getU64Loop sh acc s = some (v, r) → r.length < s.length := by
  intro s
  induction s with
  | nil => intro sh acc v r e; simp [getU64Loop] at e
  | cons b s ih =>
    intro sh acc v r e
    unfold getU64Loop at e
    split at e
    · split at e
      · simp only [Option.some.injEq, Prod.mk.injEq] at e
        rw [← e.2]; simp
      · have := ih _ _ _ _ e
        simp only [List.length_cons]; omega
    · cases e

theorem getU64_lt {s : Bytes} {v : BitVec 64} {r : Bytes} (e : getU64 s = some (v, r)) : r.length < s.length :=
  getU64Loop_length _ _ _ _ _ e

theorem NonExp.getU64 : NonExp getU64 := fun _ _ _ e => Nat.le_of_lt (getU64_lt e)

theorem NonExp.getU32 : NonExp getU32 :=
  NonExp.bind NonExp.getU64 (fun _ => NonExp.ite (NonExp.pure _) NonExp.fail)

theorem NonExp.getU16 : NonExp getU16 :=
  NonExp.bind NonExp.getU64 (fun _ => NonExp.ite (NonExp.pure _) NonExp.fail)

theorem NonExp.getPoint {G : Type} (pc : PointCodec G) : NonExp (getPoint pc) := by
  refine NonExp.bind (NonExp.readExact _) (fun buf => ?_)
  cases buf with
  | nil => exact NonExp.fail
  | cons b t => exact NonExp.ite (NonExp.ofOption _) (NonExp.pure _)

end Verif
