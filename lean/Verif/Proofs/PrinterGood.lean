import Verif.Proofs.Printer
import Verif.Proofs.ExprRead

set_option linter.unusedSimpArgs false
set_option linter.unusedVariables false

/-!
# Expressions that were read can be built again, as far as the reader checks
-/

namespace Verif
open Spec Expr
variable {G B T : Type}

theorem Spec.Shown.and {N N' : Expr G B → Prop} {e : Expr G B} (h : Shown N e) (h' : Shown N' e) : Shown (fun e => N e ∧ N' e) e := by
  induction h with
  | mk here below ih => exact ⟨⟨here, h'.here⟩, fun c hc => ih c hc (h'.child hc)⟩

variable {utf8 : Bytes → Bool} {bwf : B → Prop} {R : Reader G B}

mutual
theorem good_reads : ∀ (e : Expr G B) (st : TStore), Good utf8 bwf R e st → Shown ReadsAgain e
  | .op o args, st, h => by
    simp only [Good] at h
    exact ⟨fun _ => h.2.1, goodAll_reads args st h.2.2⟩
  | .bin k l r, st, h => by
    simp only [Good] at h
    exact ⟨trivial, shown_cons (good_reads l _ h.2.1) (shown_cons (good_reads r _ h.2.2) shown_nil)⟩
  | .cast u e t, st, h => by
    simp only [Good] at h
    exact ⟨trivial, shown_cons (good_reads e _ h.2) shown_nil⟩
  | .extractReg e r t, st, h => by
    simp only [Good] at h
    exact ⟨h.2.1, shown_cons (good_reads e _ h.2.2) shown_nil⟩
  | .selectField e i, st, h => by
    simp only [Good] at h
    exact ⟨h.1, shown_cons (good_reads e _ h.2) shown_nil⟩
  | .byIndex e i d, st, h => by
    simp only [Good] at h
    exact ⟨h.1, shown_cons (good_reads e _ h.2.2.1) (shown_cons (good_reads i _ h.2.2.2.1) shown_nil)⟩
  | .createAvl a b c d, st, h => by
    simp only [Good] at h
    exact ⟨trivial, shown_cons (good_reads b _ h.2.2.2.1) (shown_cons (good_reads c _ h.2.2.2.2.1) shown_nil)⟩
  | .coll t items, st, h => by
    simp only [Good] at h
    exact ⟨trivial, goodAll_reads items _ h.2.2⟩
  | .tuple items, st, h => by
    simp only [Good] at h
    exact ⟨trivial, goodAll_reads items _ h.2.2⟩
  | .sigma u items, st, h => by
    simp only [Good] at h
    exact ⟨trivial, goodAll_reads items _ h.2.2.2⟩
  | .func args body, st, h => by
    simp only [Good] at h
    exact ⟨trivial, shown_cons (good_reads body _ h.2.2) shown_nil⟩
  | .apply e args, st, h => by
    simp only [Good] at h
    exact ⟨h.1, shown_cons (good_reads e _ h.2.2.1) (goodAll_reads args _ h.2.2.2)⟩
  | .block items r, st, h => by
    simp only [Good] at h
    exact ⟨trivial, shown_cons (good_reads r _ h.2.2) (goodAll_reads items _ h.2.1)⟩
  | .valDef id rhs, st, h => by
    simp only [Good] at h
    exact ⟨trivial, shown_cons (good_reads rhs _ h) shown_nil⟩
  | .method ti mi sig obj args, st, h => by
    simp only [Good] at h
    exact ⟨trivial, shown_cons (good_reads obj _ h.2.2.1) (goodAll_reads args _ h.2.2.2)⟩
  | .property ti mi sig obj, st, h => by
    simp only [Good] at h
    exact ⟨trivial, shown_cons (good_reads obj _ h.2) shown_nil⟩
  | .deserReg r t d, st, h => ⟨trivial, shown_nil⟩
  | .const c, st, h => ⟨trivial, shown_nil⟩
  | .placeholder id t, st, h => ⟨trivial, shown_nil⟩
  | .valUse id t, st, h => ⟨trivial, shown_nil⟩
  | .bools l, st, h => ⟨trivial, shown_nil⟩
  | .getVar id t, st, h => ⟨trivial, shown_nil⟩
  | .deserCtx t id, st, h => ⟨trivial, shown_nil⟩
theorem goodAll_reads : ∀ (l : List (Expr G B)) (st : TStore), GoodAll utf8 bwf R l st → ∀ c ∈ l, Shown ReadsAgain c
  | [], st, h => shown_nil
  | e :: l, st, h => by
    simp only [GoodAll] at h
    exact shown_cons (good_reads e _ h.1) (goodAll_reads l _ h.2)
end

end Verif
