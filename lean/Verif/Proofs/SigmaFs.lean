import Verif.Proofs.SigmaVerify

set_option linter.unusedSimpArgs false
set_option linter.unusedVariables false

/-! The Fiat-Shamir byte string determines statement and commitments; special soundness; simulation. -/

namespace Verif.Sigma
open Verif Verif.Spec

section
variable {G : Type} [DecidableEq G] {q : Nat}

theorem bounded_leaf (p : LeafProp G) : p.toSB.Bounded := by cases p <;> trivial

theorem ser_leaf_length (pc : PointCodec G) (p : LeafProp G) : (SigmaBoolean.ser pc p.toSB).length ≤ 133 := by
  cases p <;> simp [LeafProp.toSB, SigmaBoolean.ser, putPoint_length]

theorem propBytes_length (pc : PointCodec G) (p : LeafProp G) : (propBytes pc p).length ≤ 138 := by
  have := ser_leaf_length pc p
  simp [propBytes]; omega

theorem msgBytes_length (pc : PointCodec G) (m : Msg G) : (m.bytes pc).length ≤ 66 := by
  cases m <;> simp [Msg.bytes, putPoint_length]

theorem toSB_inj {p p' : LeafProp G} (h : p.toSB = p'.toSB) : p = p' := by
  cases p <;> cases p' <;> simp_all [LeafProp.toSB]

theorem ser_leaf_inj (pc : PointCodec G) {p p' : LeafProp G} {r r' : Bytes}
    (h : SigmaBoolean.ser pc p.toSB ++ r = SigmaBoolean.ser pc p'.toSB ++ r') : p = p' ∧ r = r' := by
  have h1 := SigmaBoolean.parse_ser pc p.toSB (bounded_leaf p) r
  rw [h, SigmaBoolean.parse_ser pc p'.toSB (bounded_leaf p') r'] at h1
  simp only [Option.some.injEq, Prod.mk.injEq] at h1
  exact ⟨toSB_inj h1.1.symm, h1.2.symm⟩

theorem propBytes_inj (pc : PointCodec G) {p p' : LeafProp G} {r r' : Bytes}
    (h : propBytes pc p ++ r = propBytes pc p' ++ r') : p = p' ∧ r = r' := by
  unfold propBytes at h
  simp only [List.append_assoc, List.append_cancel_left_eq] at h
  obtain ⟨h1, h2⟩ := ser_leaf_inj pc h
  simpa [h1] using h2

theorem putPoint_inj (pc : PointCodec G) {a b : G} {r r' : Bytes} (h : putPoint pc a ++ r = putPoint pc b ++ r') : a = b ∧ r = r' := by
  have h1 := getPoint_putPoint pc a r
  rw [h, getPoint_putPoint] at h1
  simp only [Option.some.injEq, Prod.mk.injEq] at h1
  exact ⟨h1.1.symm, h1.2.symm⟩

theorem putI16Be_inj {a b : Nat} (ha : a < 65536) (hb : b < 65536) {r r' : Bytes} (h : putI16Be a ++ r = putI16Be b ++ r') :
    a = b ∧ r = r' := by
  obtain ⟨h1, h2⟩ := List.append_inj h (by simp [putI16Be, natBe_length])
  exact ⟨natBe_inj (n := 2) (by omega) (by omega) h1, h2⟩

theorem msgBytes_inj (pc : PointCodec G) {m m' : Msg G} {r r' : Bytes}
    (h : putI16Be (m.bytes pc).length ++ (m.bytes pc ++ r) = putI16Be (m'.bytes pc).length ++ (m'.bytes pc ++ r')) :
    m = m' ∧ r = r' := by
  have l1 := msgBytes_length pc m
  have l2 := msgBytes_length pc m'
  obtain ⟨h1, h2⟩ := putI16Be_inj (by omega) (by omega) h
  cases m <;> cases m' <;> simp [Msg.bytes, putPoint_length] at h1
  · simp only [Msg.bytes] at h2
    obtain ⟨h3, h4⟩ := putPoint_inj pc h2
    exact ⟨by rw [h3], h4⟩
  · simp only [Msg.bytes, List.append_assoc] at h2
    obtain ⟨h3, h4⟩ := putPoint_inj pc h2
    obtain ⟨h5, h6⟩ := putPoint_inj pc h4
    exact ⟨by rw [h3, h5], h6⟩

theorem fsLeaf_inj (pc : PointCodec G) {p p' : LeafProp G} {m m' : Option (Msg G)} {b b' r r' : Bytes}
    (h1 : fsLeaf pc p m = .ok b) (h2 : fsLeaf pc p' m' = .ok b') (h : b ++ r = b' ++ r') : p = p' ∧ m = m' ∧ r = r' := by
  cases m with
  | none => cases h1
  | some m =>
    cases m' with
    | none => cases h2
    | some m' =>
      simp only [fsLeaf, Outcome.ok.injEq] at h1 h2
      subst h1 h2
      simp only [List.cons_append, List.cons.injEq, true_and, List.append_assoc] at h
      have l1 := propBytes_length pc p
      have l2 := propBytes_length pc p'
      obtain ⟨_, h3⟩ := putI16Be_inj (by omega) (by omega) h
      obtain ⟨h4, h5⟩ := propBytes_inj pc h3
      obtain ⟨h6, h7⟩ := msgBytes_inj pc h5
      exact ⟨h4, by rw [h6], h7⟩

theorem fsLeaf_head (pc : PointCodec G) {p : LeafProp G} {m : Option (Msg G)} {b : Bytes} (h : fsLeaf pc p m = .ok b) :
    b.head? = some 1#8 := by
  cases m with
  | none => cases h
  | some m => simp only [fsLeaf, Outcome.ok.injEq] at h; subst h; rfl

theorem fsKind_inj {k k' : UKind} {r r' : Bytes} (h : k.fsBytes ++ r = k'.fsBytes ++ r') : SameKind k k' ∧ r = r' := by
  cases k <;> cases k' <;> simp_all [UKind.fsBytes, SameKind]

mutual
theorem fs_inj (pc : PointCodec G) : ∀ (t t' : Unchecked G q) (b b' r r' : Bytes), ChildCountsFit t → ChildCountsFit t' →
    fsUnchecked pc t = .ok b → fsUnchecked pc t' = .ok b' → b ++ r = b' ++ r' → SameStatement t t' ∧ r = r'
  | .leaf p m e z, .leaf p' m' e' z', b, b', r, r', _, _, h1, h2, h => by
    obtain ⟨a1, a2, a3⟩ := fsLeaf_inj pc h1 h2 h
    exact ⟨⟨a1, a2⟩, a3⟩
  | .leaf p m e z, .conj k e' cs, b, b', r, r', _, _, h1, h2, h => by
    have := fsLeaf_head pc h1
    simp only [fsUnchecked, Outcome.bind_eq_ok, Outcome.pure_eq, Outcome.ok.injEq] at h2
    obtain ⟨bs, _, rfl⟩ := h2
    cases b <;> simp_all
  | .conj k e' cs, .leaf p m e z, b, b', r, r', _, _, h1, h2, h => by
    have := fsLeaf_head pc h2
    simp only [fsUnchecked, Outcome.bind_eq_ok, Outcome.pure_eq, Outcome.ok.injEq] at h1
    obtain ⟨bs, _, rfl⟩ := h1
    cases b' <;> simp_all
  | .conj k e cs, .conj k' e' cs', b, b', r, r', f1, f2, h1, h2, h => by
    simp only [fsUnchecked, Outcome.bind_eq_ok, Outcome.pure_eq, Outcome.ok.injEq] at h1 h2
    obtain ⟨bs, g1, rfl⟩ := h1
    obtain ⟨bs', g2, rfl⟩ := h2
    simp only [List.cons_append, List.cons.injEq, true_and, List.append_assoc] at h
    obtain ⟨a1, a2⟩ := fsKind_inj h
    obtain ⟨a3, a4⟩ := putI16Be_inj f1.1 f2.1 a2
    obtain ⟨a5, a6⟩ := fsList_inj pc cs cs' bs bs' r r' f1.2 f2.2 a3 g1 g2 a4
    exact ⟨⟨a1, a5⟩, a6⟩
theorem fsList_inj (pc : PointCodec G) : ∀ (ts ts' : List (Unchecked G q)) (b b' r r' : Bytes), ChildCountsFitList ts →
    ChildCountsFitList ts' → ts.length = ts'.length → fsUncheckedList pc ts = .ok b → fsUncheckedList pc ts' = .ok b' →
    b ++ r = b' ++ r' → SameStatementList ts ts' ∧ r = r'
  | [], [], b, b', r, r', _, _, _, h1, h2, h => by
    simp only [fsUncheckedList, Outcome.ok.injEq] at h1 h2
    subst h1 h2
    exact ⟨trivial, h⟩
  | t :: ts, t' :: ts', b, b', r, r', f1, f2, hl, h1, h2, h => by
    simp only [fsUncheckedList, Outcome.bind_eq_ok, Outcome.pure_eq, Outcome.ok.injEq] at h1 h2
    obtain ⟨c, c1, d, d1, rfl⟩ := h1
    obtain ⟨c', c1', d', d1', rfl⟩ := h2
    rw [List.append_assoc, List.append_assoc] at h
    obtain ⟨a1, a2⟩ := fs_inj pc t t' c c' _ _ f1.1 f2.1 c1 c1' h
    obtain ⟨a3, a4⟩ := fsList_inj pc ts ts' d d' _ _ f1.2 f2.2 (by simpa using hl) d1 d1' a2
    exact ⟨⟨a1, a3⟩, a4⟩
  | [], _ :: _, _, _, _, _, _, _, hl, _, _, _ => by simp at hl
  | _ :: _, [], _, _, _, _, _, _, hl, _, _, _ => by simp at hl
end

mutual
/-- Trees of a bounded proposition have counts that fit. -/
theorem fits_of_consistent : ∀ (sb : SigmaBoolean G) (t : Unchecked G q), sb.Bounded → Consistent sb t → ChildCountsFit t
  | _, .leaf _ _ _ _, _, _ => trivial
  | .cand items, .conj .and e cs, hb, h => by
    have := consistentList_length items cs h.2
    exact ⟨by have := hb.2.1; omega, fitsList_of_consistent items cs hb.2.2 h.2⟩
  | .cor items, .conj .or e cs, hb, h => by
    have := consistentList_length items cs h.2
    exact ⟨by have := hb.2.1; omega, fitsList_of_consistent items cs hb.2.2 h.2⟩
  | .cth k items, .conj (.thr k' poly) e cs, hb, h => by
    have h7 := h.2.2.2.2.2.2
    have := consistentList_length items cs h7
    exact ⟨by have := hb.2.1; omega, fitsList_of_consistent items cs hb.2.2 h7⟩
  | .trivial _, .conj _ _ _, _, h => h.elim
  | .dlog _, .conj _ _ _, _, h => h.elim
  | .dht _ _ _ _, .conj _ _ _, _, h => h.elim
  | .cand _, .conj .or _ _, _, h => h.elim
  | .cand _, .conj (.thr _ _) _ _, _, h => h.elim
  | .cor _, .conj .and _ _, _, h => h.elim
  | .cor _, .conj (.thr _ _) _ _, _, h => h.elim
  | .cth _ _, .conj .and _ _, _, h => h.elim
  | .cth _ _, .conj .or _ _, _, h => h.elim
theorem fitsList_of_consistent : ∀ (l : List (SigmaBoolean G)) (ts : List (Unchecked G q)), SigmaBoolean.BoundedList l →
    ConsistentList l ts → ChildCountsFitList ts
  | [], [], _, _ => trivial
  | a :: l, t :: ts, hb, h => ⟨fits_of_consistent a t hb.1 h.1, fitsList_of_consistent l ts hb.2 h.2⟩
  | [], _ :: _, _, h => h.elim
  | _ :: _, [], _, h => h.elim
end

end

/-! ### Special soundness -/

theorem beNat_inj {a b : Bytes} (hl : a.length = b.length) (h : beNat a = beNat b) : a = b := by
  rw [← natBe_beNat a, ← natBe_beNat b, h, hl]

theorem toScalar_inj {q : Nat} (hq : 2 ^ 192 ≤ q) {e e' : Challenge} (h : (e.toScalar : ZMod q) = e'.toScalar) : e = e' := by
  unfold Challenge.toScalar at h
  rw [ZMod.natCast_eq_natCast_iff] at h
  have h1 := beNat_lt e.1
  have h2 := beNat_lt e'.1
  rw [e.2] at h1
  rw [e'.2] at h2
  have h3 : (256 : Nat) ^ 24 = 2 ^ 192 := by norm_num
  have := Nat.ModEq.eq_of_lt_of_lt h (by omega) (by omega)
  exact Challenge.ext (beNat_inj (by rw [e.2, e'.2]) this)

section
variable {G : Type} {q : Nat} [Fact q.Prime] [AddCommGroup G] [Module (ZMod q) G]

theorem leaf_extract (hq : 2 ^ 192 ≤ q) (gen : G) (p : LeafProp G) (m : Msg G) {e e' : Challenge} (hne : e ≠ e') (z z' : ZMod q)
    (h : LeafValid gen p m e z) (h' : LeafValid gen p m e' z') :
    IsWitness gen p ((z - z') / ((e.toScalar : ZMod q) - e'.toScalar)) := by
  have hd : (e.toScalar : ZMod q) - e'.toScalar ≠ 0 := fun h0 => hne (toScalar_inj hq (sub_eq_zero.1 h0))
  have key : ∀ (g a u : G), z • g = a + (e.toScalar : ZMod q) • u → z' • g = a + (e'.toScalar : ZMod q) • u →
      u = ((z - z') / ((e.toScalar : ZMod q) - e'.toScalar)) • g := by
    intro g a u h1 h2
    have : ((e.toScalar : ZMod q) - e'.toScalar) • u = (z - z') • g := by
      rw [sub_smul, sub_smul, h1, h2]; abel
    rw [div_eq_mul_inv, mul_comm, mul_smul, ← this, ← mul_smul, inv_mul_cancel₀ hd, one_smul]
  cases p <;> cases m <;> simp only [LeafValid, IsWitness] at *
  · exact key _ _ _ h h'
  · exact ⟨key _ _ _ h.1 h'.1, key _ _ _ h.2 h'.2⟩

mutual
theorem extract_witness (hq : 2 ^ 192 ≤ q) (gen : G) : ∀ (t t' : Unchecked G q), AllValid gen t → AllValid gen t' → SameStatement t t' →
    ∀ x ∈ extract t t', IsWitness gen x.1 x.2
  | .leaf p m e z, .leaf p' m' e' z', h, h', hs => by
    intro x hx
    obtain ⟨rfl, rfl⟩ := hs
    obtain ⟨c, rfl, h⟩ := h
    obtain ⟨c', hc, h'⟩ := h'
    cases hc
    rw [extract] at hx
    split at hx
    · cases hx
    · simp only [List.mem_singleton] at hx
      subst hx
      exact leaf_extract hq gen p c ‹_› z z' h h'
  | .conj _ _ cs, .conj _ _ cs', h, h', hs => extractList_witness hq gen cs cs' h h' hs.2
  | .leaf _ _ _ _, .conj _ _ _, _, _, hs => hs.elim
  | .conj _ _ _, .leaf _ _ _ _, _, _, hs => hs.elim
theorem extractList_witness (hq : 2 ^ 192 ≤ q) (gen : G) : ∀ (ts ts' : List (Unchecked G q)), AllValidList gen ts → AllValidList gen ts' →
    SameStatementList ts ts' → ∀ x ∈ extractList ts ts', IsWitness gen x.1 x.2
  | [], [], _, _, _ => by simp [extractList]
  | t :: ts, t' :: ts', h, h', hs => by
    intro x hx
    rw [extractList, List.mem_append] at hx
    rcases hx with hx | hx
    · exact extract_witness hq gen t t' h.1 h'.1 hs.1 x hx
    · exact extractList_witness hq gen ts ts' h.2 h'.2 hs.2 x hx
  | [], _ :: _, _, _, hs => hs.elim
  | _ :: _, [], _, _, hs => hs.elim
end

end

/-! Threshold counting. -/

/-- Positions at which two lists of challenges differ. -/
def diffCount : List Challenge → List Challenge → Nat
  | e :: es, e' :: es' => (if e = e' then 0 else 1) + diffCount es es'
  | _, _ => 0

theorem diffCount_pos : ∀ (es es' : List Challenge), es.length = es'.length → xorAll es ≠ xorAll es' → diffCount es es' ≠ 0
  | [], [], _, h => absurd rfl h
  | e :: es, e' :: es', hl, h => by
    rw [diffCount]
    split
    · rename_i he
      have := diffCount_pos es es' (by simpa using hl) (fun hx => h (by rw [xorAll, xorAll, he, hx]))
      omega
    · omega
  | [], _ :: _, hl, _ => by simp at hl
  | _ :: _, [], hl, _ => by simp at hl

/-- The positions at which they agree, as evaluation points, starting at `i`. -/
def agreePts : Nat → List Challenge → List Challenge → List Nat
  | i, e :: es, e' :: es' => if e = e' then i :: agreePts (i + 1) es es' else agreePts (i + 1) es es'
  | _, _, _ => []

theorem agree_diff : ∀ (es es' : List Challenge) (i : Nat), es.length = es'.length →
    (agreePts i es es').length + diffCount es es' = es.length
  | [], [], _, _ => rfl
  | e :: es, e' :: es', i, hl => by
    have := agree_diff es es' (i + 1) (by simpa using hl)
    rw [agreePts, diffCount]
    split <;> simp <;> omega
  | [], _ :: _, _, hl => by simp at hl
  | _ :: _, [], _, hl => by simp at hl

theorem agree_mem : ∀ (es es' : List Challenge) (i j : Nat), j ∈ agreePts i es es' →
    ∃ m e, j = i + m ∧ es[m]? = some e ∧ es'[m]? = some e
  | e :: es, e' :: es', i, j, h => by
    rw [agreePts] at h
    have step : j ∈ agreePts (i + 1) es es' → ∃ m x, j = i + m ∧ (e :: es)[m]? = some x ∧ (e' :: es')[m]? = some x := by
      intro h
      obtain ⟨m, x, h1, h2, h3⟩ := agree_mem es es' (i + 1) j h
      exact ⟨m + 1, x, by omega, by simpa using h2, by simpa using h3⟩
    split at h
    · rename_i he
      rcases List.mem_cons.1 h with rfl | h
      · exact ⟨0, e, rfl, rfl, by simp [he]⟩
      · exact step h
    · exact step h
  | [], [], _, _, h => by simp [agreePts] at h
  | [], _ :: _, _, _, h => by simp [agreePts] at h
  | _ :: _, [], _, _, h => by simp [agreePts] at h

theorem agree_nodup : ∀ (es es' : List Challenge) (i : Nat), (agreePts i es es').Nodup
  | e :: es, e' :: es', i => by
    rw [agreePts]
    split
    · refine List.nodup_cons.2 ⟨?_, agree_nodup es es' (i + 1)⟩
      intro h
      obtain ⟨m, _, h1, _⟩ := agree_mem es es' (i + 1) i h
      omega
    · exact agree_nodup es es' (i + 1)
  | [], [], _ => by simp [agreePts]
  | [], _ :: _, _ => by simp [agreePts]
  | _ :: _, [], _ => by simp [agreePts]

theorem thr_count (es es' : List Challenge) (n k : Nat) (hn : es.length = n) (hn' : es'.length = n) (h255 : n ≤ 255) (hk : k ≤ n)
    (cs cs' : List Gf.Gf) (hl : cs.length = n - k + 1) (hl' : cs'.length = n - k + 1) (h0 : cs[0]? ≠ cs'[0]?)
    (hev : ∀ i e, es[i]? = some e → e.toGf = gfEval cs (gfByte (BitVec.ofNat 8 (i + 1))))
    (hev' : ∀ i e, es'[i]? = some e → e.toGf = gfEval cs' (gfByte (BitVec.ofNat 8 (i + 1)))) : k ≤ diffCount es es' := by
  by_contra hlt
  have h1 := agree_diff es es' 1 (by omega)
  apply h0
  have hlen : n - k + 1 ≤ (agreePts 1 es es').length := by omega
  have : cs = cs' := by
    apply Gf.poly_unique cs cs' (((agreePts 1 es es').take (n - k + 1)).map (BitVec.ofNat 8))
    · apply List.Nodup.map_on _ ((agree_nodup es es' 1).sublist (List.take_sublist _ _))
      intro x hx y hy hxy
      obtain ⟨m, e, h2, h3, _⟩ := agree_mem es es' 1 x (List.mem_of_mem_take hx)
      obtain ⟨m', e', h2', h3', _⟩ := agree_mem es es' 1 y (List.mem_of_mem_take hy)
      have b1 : m < es.length := (List.getElem?_eq_some_iff.1 h3).1
      have b2 : m' < es.length := (List.getElem?_eq_some_iff.1 h3').1
      have := congrArg BitVec.toNat hxy
      simp at this
      omega
    · simp; omega
    · simp; omega
    · intro x hx
      obtain ⟨j, hj, rfl⟩ := List.mem_map.1 hx
      obtain ⟨m, e, h2, h3, h4⟩ := agree_mem es es' 1 j (List.mem_of_mem_take hj)
      have e1 := hev m e h3
      have e2 := hev' m e h4
      rw [e1] at e2
      rw [← Gf.φ_byte, ← Gf.φ_eval, ← Gf.φ_eval, show j = m + 1 by omega, e2]
  rw [this]

section
variable {G : Type} [DecidableEq G] {q : Nat} [Fact q.Prime]

theorem sameStatementList_length : ∀ (ts ts' : List (Unchecked G q)), SameStatementList ts ts' → ts.length = ts'.length
  | [], [], _ => rfl
  | _ :: ts, _ :: ts', h => by simp [sameStatementList_length ts ts' h.2]
  | [], _ :: _, h => h.elim
  | _ :: _, [], h => h.elim

/-- The claim proved by induction. -/
def SS (L : List (LeafProp G × ZMod q)) (sb : SigmaBoolean G) : Prop := ∀ t t' : Unchecked G q, Consistent sb t → Consistent sb t' →
  t.challenge ≠ t'.challenge → (∀ x ∈ extract t t', x ∈ L) → holds (knownBy L) sb = true

theorem ss_count (L : List (LeafProp G × ZMod q)) : ∀ (items : List (SigmaBoolean G)) (_ : ∀ a ∈ items, SS L a) (ts ts' : List (Unchecked G q)),
    ConsistentList items ts → ConsistentList items ts' → (∀ x ∈ extractList ts ts', x ∈ L) →
    diffCount (ts.map Unchecked.challenge) (ts'.map Unchecked.challenge) ≤ holdsCount (knownBy L) items
  | [], _, [], [], _, _, _ => Nat.le_refl _
  | a :: items, ih, t :: ts, t' :: ts', h, h', hx => by
    have hrec := ss_count L items (fun b hb => ih b (by simp [hb])) ts ts' h.2 h'.2 (fun x h => hx x (by simp [extractList, h]))
    rw [List.map_cons, List.map_cons, diffCount, holdsCount]
    split
    · omega
    · rename_i hne
      rw [if_pos (ih a (by simp) t t' h.1 h'.1 hne (fun x h => hx x (by simp [extractList, h])))]
      omega
  | [], _, _ :: _, _, h, _, _ => h.elim
  | [], _, [], _ :: _, _, h, _ => h.elim
  | _ :: _, _, [], _, h, _, _ => h.elim
  | _ :: _, _, _ :: _, [], _, h, _ => h.elim

theorem diffCount_all : ∀ (ts ts' : List Challenge) (e e' : Challenge), e ≠ e' → ts.length = ts'.length → (∀ x ∈ ts, x = e) →
    (∀ x ∈ ts', x = e') → diffCount ts ts' = ts.length
  | [], [], _, _, _, _, _, _ => rfl
  | x :: ts, y :: ts', e, e', hne, hl, h, h' => by
    rw [diffCount, if_neg (by rw [h x (by simp), h' y (by simp)]; exact hne),
      diffCount_all ts ts' e e' hne (by simpa using hl) (fun x hx => h x (by simp [hx])) (fun x hx => h' x (by simp [hx]))]
    simp; omega
  | [], _ :: _, _, _, _, hl, _, _ => by simp at hl
  | _ :: _, [], _, _, _, hl, _, _ => by simp at hl

theorem special_soundness (L : List (LeafProp G × ZMod q)) (sb : SigmaBoolean G) (hb : sb.Bounded) : SS L sb := by
  induction sb using SigmaBoolean.induct with
  | htriv b => intro t t' h; cases t <;> exact h.elim
  | hdlog x =>
    intro t t' h h' hne hx
    cases t with
    | conj _ _ _ => exact h.elim
    | leaf p m e z =>
      cases t' with
      | conj _ _ _ => exact h'.elim
      | leaf p' m' e' z' =>
        subst h h'
        rw [extract, if_neg (show ¬ e = e' from hne)] at hx
        simp only [holds, knownBy, List.any_eq_true, decide_eq_true_eq]
        exact ⟨_, hx _ (List.mem_singleton.2 rfl), rfl⟩
  | hdht g x u v =>
    intro t t' h h' hne hx
    cases t with
    | conj _ _ _ => exact h.elim
    | leaf p m e z =>
      cases t' with
      | conj _ _ _ => exact h'.elim
      | leaf p' m' e' z' =>
        subst h h'
        rw [extract, if_neg (show ¬ e = e' from hne)] at hx
        simp only [holds, knownBy, List.any_eq_true, decide_eq_true_eq]
        exact ⟨_, hx _ (List.mem_singleton.2 rfl), rfl⟩
  | hcand items ih =>
    intro t t' h h' hne hx
    have hb' := (SigmaBoolean.boundedList_iff items).1 hb.2.2
    cases t with
    | leaf _ _ _ _ => exact h.elim
    | conj kind e cs =>
      cases t' with
      | leaf _ _ _ _ => exact h'.elim
      | conj kind' e' cs' =>
        cases kind with
        | or => exact h.elim
        | thr _ _ => exact h.elim
        | and =>
          cases kind' with
          | or => exact h'.elim
          | thr _ _ => exact h'.elim
          | and =>
            have hc := ss_count L items (fun a ha => ih a ha (hb' a ha)) cs cs' h.2 h'.2 hx
            have l1 := consistentList_length items cs h.2
            have l2 := consistentList_length items cs' h'.2
            rw [diffCount_all _ _ e e' hne (by simp; omega) (by
                intro x hx; obtain ⟨c, hc, rfl⟩ := List.mem_map.1 hx; exact h.1 c hc) (by
                intro x hx; obtain ⟨c, hc, rfl⟩ := List.mem_map.1 hx; exact h'.1 c hc), List.length_map] at hc
            have := SigmaBoolean.holdsCount_le (knownBy L) items
            simp only [holds, beq_iff_eq]; omega
  | hcor items ih =>
    intro t t' h h' hne hx
    have hb' := (SigmaBoolean.boundedList_iff items).1 hb.2.2
    cases t with
    | leaf _ _ _ _ => exact h.elim
    | conj kind e cs =>
      cases t' with
      | leaf _ _ _ _ => exact h'.elim
      | conj kind' e' cs' =>
        cases kind with
        | and => exact h.elim
        | thr _ _ => exact h.elim
        | or =>
          cases kind' with
          | and => exact h'.elim
          | thr _ _ => exact h'.elim
          | or =>
            have hc := ss_count L items (fun a ha => ih a ha (hb' a ha)) cs cs' h.2 h'.2 hx
            have l1 := consistentList_length items cs h.2
            have l2 := consistentList_length items cs' h'.2
            have := diffCount_pos (cs.map Unchecked.challenge) (cs'.map Unchecked.challenge) (by simp; omega)
              (by rw [h.1, h'.1]; exact hne)
            simp only [holds, bne_iff_ne]; omega
  | hcth k items ih =>
    intro t t' h h' hne hx
    have hb' := (SigmaBoolean.boundedList_iff items).1 hb.2.2
    cases t with
    | leaf _ _ _ _ => exact h.elim
    | conj kind e cs =>
      cases t' with
      | leaf _ _ _ _ => exact h'.elim
      | conj kind' e' cs' =>
        cases kind with
        | and => exact h.elim
        | or => exact h.elim
        | thr k1 poly =>
          cases kind' with
          | and => exact h'.elim
          | or => exact h'.elim
          | thr k2 poly' =>
            obtain ⟨rfl, hk, hd, hl, h0, hev, hcl⟩ := h
            obtain ⟨rfl, hk', hd', hl', h0', hev', hcl'⟩ := h'
            have hc := ss_count L items (fun a ha => ih a ha (hb' a ha)) cs cs' hcl hcl' hx
            have l1 := consistentList_length items cs hcl
            have l2 := consistentList_length items cs' hcl'
            have := thr_count (cs.map Unchecked.challenge) (cs'.map Unchecked.challenge) items.length k2.toNat (by simp; omega)
              (by simp; omega) hb.2.1 hk poly.coefficients poly'.coefficients hl hl' (by
                rw [h0, h0']
                intro h
                exact hne (toGf_inj (Option.some.inj h))) (by
                intro i e he
                rw [List.getElem?_map, Option.map_eq_some_iff] at he
                obtain ⟨c, hc, rfl⟩ := he
                exact hev i c hc) (by
                intro i e he
                rw [List.getElem?_map, Option.map_eq_some_iff] at he
                obtain ⟨c, hc, rfl⟩ := he
                exact hev' i c hc)
            simp only [holds, decide_eq_true_eq]; omega

end

/-! ### Simulation -/

section
variable {G : Type} [DecidableEq G] {q : Nat} [AddCommGroup G] [Module (ZMod q) G]

theorem simulate_valid (C : Curve G) (hone : C.codec.one = 0) (p : LeafProp G) (e : Challenge) (z : ZMod q) :
    LeafValid C.gen p (simulate C p e z) e z := by
  cases p <;> simp [LeafValid, simulate, expo_eq C hone]

theorem real_valid (C : Curve G) (hone : C.codec.one = 0) (p : LeafProp G) (w r : ZMod q) (hw : IsWitness C.gen p w) (e : Challenge) :
    LeafValid C.gen p (firstMessage C p r) e (secondMessage w r e) := by
  cases p with
  | dlog h =>
    simp only [LeafValid, firstMessage, secondMessage, expo_eq C hone]
    rw [hw, add_smul, mul_smul]
  | dht g h u v =>
    simp only [LeafValid, firstMessage, secondMessage, expo_eq C hone]
    rw [hw.1, hw.2, add_smul, mul_smul, add_smul, mul_smul]
    exact ⟨rfl, rfl⟩

theorem simulate_eq_real (C : Curve G) (hone : C.codec.one = 0) (p : LeafProp G) (w r : ZMod q) (hw : IsWitness C.gen p w) (e : Challenge) :
    simulate C p e (secondMessage w r e) = firstMessage C p r := by
  have h1 := (leafValid_iff C hone _ _ _ _).1 (simulate_valid C hone p e (secondMessage w r e))
  have h2 := (leafValid_iff C hone _ _ _ _).1 (real_valid C hone p w r hw e)
  rw [h1, h2]

theorem secondMessage_bijective (w : ZMod q) (e : Challenge) : Function.Bijective (fun r => secondMessage w r e) := by
  constructor
  · intro a b h; simpa [secondMessage] using h
  · intro z; exact ⟨z - e.toScalar * w, by simp [secondMessage]⟩

end

end Verif.Sigma
