import Verif.Proofs.VlqGet
import Verif.Spec.Merkle

set_option linter.unusedSimpArgs false

namespace Verif.Merkle
open Spec

/-- A level node whose hash, if present, is a `Digest32` that is not all zeros. -/
def LevelGood (l : LevelNode) : Prop := ∀ h, l.hash = some h → h.length = 32 ∧ ∃ b ∈ h, b ≠ 0#8

theorem putU32Be_length (v : BitVec 32) : (putU32Be v).length = 4 := rfl

theorem getLevel_put : RoundTrips LevelGood putLevel getLevel := by
  intro l hl rest
  obtain ⟨h, s⟩ := l
  have hs : Side.ofByte s.toByte = some s := by cases s <;> decide
  unfold getLevel putLevel
  cases h with
  | none =>
    simp only [Option.getD_none, List.append_assoc]
    rw [Parser.bind_some (readExact_append' (List.replicate 32 0#8) _ (by simp))]
    simp only [List.cons_append, List.nil_append]
    rw [Parser.bind_some (getU8_cons _ _), hs]
    rw [Parser.bind_some (show Parser.ofOption (some s) rest = some (s, rest) from rfl)]
    rw [if_pos (by decide)]
    rfl
  | some x =>
    obtain ⟨hx, b, hb, hb0⟩ := hl x rfl
    simp only [Option.getD_some, List.append_assoc]
    rw [Parser.bind_some (readExact_append' _ _ hx)]
    simp only [List.cons_append, List.nil_append]
    rw [Parser.bind_some (getU8_cons _ _), hs]
    rw [Parser.bind_some (show Parser.ofOption (some s) rest = some (s, rest) from rfl)]
    rw [if_neg (by
      intro h
      rw [List.all_eq_true] at h
      exact hb0 (by simpa using h b hb))]
    rfl

theorem getIndexed_put (x : Indexed) (bs : Bytes) (h : putIndexed x = some bs) (hx : x.hash.length = 32) (rest : Bytes) :
    getIndexed (bs ++ rest) = some (x, rest) := by
  unfold putIndexed putUsizeU32Be at h
  split at h
  · rename_i hlt
    simp only [Option.pure_def, Option.bind_eq_bind, Option.bind_some, Option.some.injEq] at h
    subst h
    unfold getIndexed
    rw [List.append_assoc, Parser.bind_some (getU32Be_put _ _), Parser.bind_some (readExact_append' _ _ hx)]
    have : (BitVec.ofNat 32 x.index).toNat = x.index := by simp; omega
    rw [this]; rfl
  · simp at h

theorem getIndexed_many : ∀ (l : List Indexed) (bss : List Bytes), l.mapM putIndexed = some bss →
    (∀ x ∈ l, x.hash.length = 32) → ∀ rest, replicateP l.length getIndexed (bss.flatten ++ rest) = some (l, rest) := by
  intro l
  induction l with
  | nil => intro bss h _ rest; simp at h; subst h; rfl
  | cons x l ih =>
    intro bss h hl rest
    simp only [List.mapM_cons, Option.bind_eq_bind, Option.bind_eq_some_iff, Option.pure_def, Option.some.injEq] at h
    obtain ⟨b, hb, bs, hbs, rfl⟩ := h
    simp only [List.length_cons, replicateP, List.flatten_cons, List.append_assoc]
    rw [Parser.bind_some (getIndexed_put x b hb (hl x (by simp)) _),
      Parser.bind_some (ih bs hbs (fun y hy => hl y (by simp [hy])) rest)]
    rfl

theorem putIndexed_some (x : Indexed) (h : x.index < 2 ^ 32) : ∃ bs, putIndexed x = some bs := by
  unfold putIndexed putUsizeU32Be
  rw [if_pos h]; exact ⟨_, rfl⟩

theorem mapM_putIndexed_some : ∀ (l : List Indexed), (∀ x ∈ l, x.index < 2 ^ 32) → ∃ bss, l.mapM putIndexed = some bss := by
  intro l
  induction l with
  | nil => intro _; exact ⟨[], rfl⟩
  | cons x l ih =>
    intro h
    obtain ⟨b, hb⟩ := putIndexed_some x (h x (by simp))
    obtain ⟨bs, hbs⟩ := ih (fun y hy => h y (by simp [hy]))
    exact ⟨b :: bs, by simp [hb, hbs]⟩

theorem batch_roundtrip (p : Batch) (hi : ∀ x ∈ p.indices, x.hash.length = 32) (hl : ∀ l ∈ p.proofs, LevelGood l)
    (bs : Bytes) (h : p.ser = some bs) (rest : Bytes) : Batch.parse (bs ++ rest) = some (p, rest) := by
  unfold Batch.ser putUsizeU32Be at h
  split at h <;> try (simp at h; done)
  rename_i h1
  split at h <;> try (simp at h; done)
  rename_i h2
  simp only [Option.pure_def, Option.bind_eq_bind, Option.bind_some, Option.bind_eq_some_iff, Option.some.injEq] at h
  obtain ⟨is, his, rfl⟩ := h
  unfold Batch.parse
  simp only [List.append_assoc]
  rw [Parser.bind_some (getU32Be_put _ _), Parser.bind_some (getU32Be_put _ _)]
  have e1 : (BitVec.ofNat 32 p.indices.length).toNat = p.indices.length := by simp; omega
  have e2 : (BitVec.ofNat 32 p.proofs.length).toNat = p.proofs.length := by simp; omega
  rw [e1, e2, Parser.bind_some (getIndexed_many _ _ his hi _),
    Parser.bind_some (replicateP_roundTrips getLevel_put p.proofs hl rest)]
  rfl

theorem batch_ser_some (p : Batch) (h1 : p.indices.length < 2 ^ 32) (h2 : p.proofs.length < 2 ^ 32)
    (h3 : ∀ x ∈ p.indices, x.index < 2 ^ 32) : ∃ bs, p.ser = some bs := by
  obtain ⟨is, his⟩ := mapM_putIndexed_some p.indices h3
  unfold Batch.ser putUsizeU32Be
  rw [if_pos h1, if_pos h2, his]
  exact ⟨_, rfl⟩

end Verif.Merkle
