import Verif.Proofs.MerkleBatchSound
import Verif.Proofs.MerkleCodec

/-! # C26–C30: Merkle trees -/

set_option linter.unusedSimpArgs false

namespace Verif
open Spec Merkle

/-! ## C26 -/

/-- C26: every nonempty list of leaves gives a tree (no panic) whose root is the root of the level-by-level
specification, and for every index the proof exists, carries that leaf, is valid for the root and spells out that
position. -/
theorem C26_proof_by_index (H : HashFn) (leaves : List Bytes) (hne : leaves ≠ []) :
    ∃ t depth, Tree.new H (leaves.map (Node.fromBytes H)) = .ok t ∧ IsRoot H leaves depth t.rootHash ∧
      ∀ i, (h : i < leaves.length) → ∃ p, t.proofByIndex i = .ok p ∧ p.leafData = leaves[i] ∧
        p.valid H t.rootHash = true ∧ p.levels.length = depth ∧ posOf p.levels = i := by
  obtain ⟨t, D, ht, hD, hp⟩ := tree_new H leaves hne
  obtain ⟨r, hr, _, hroot⟩ := heap_root hp hD hne
  refine ⟨t, D, ht, by rw [hr]; exact hroot, fun i hi => ?_⟩
  obtain ⟨p, h1, h2, h3, h4, h5, _⟩ := proofByIndex_ok hp hD hne i hi
  exact ⟨p, h1, h2, h3, h4, h5⟩

/-- C26: indices beyond the leaves give no proof (in particular the padding node does not). -/
theorem C26_out_of_range (H : HashFn) (leaves : List Bytes) (hne : leaves ≠ []) (t : Tree)
    (ht : Tree.new H (leaves.map (Node.fromBytes H)) = .ok t) (i : Nat) (hi : leaves.length ≤ i) :
    t.proofByIndex i = .err := by
  obtain ⟨t', D, ht', hD, hp⟩ := tree_new H leaves hne
  rw [ht] at ht'; cases ht'
  exact proofByIndex_err hp i hi

/-- C26: looking up a leaf by its data gives a valid proof of that very data, or two leaves of the tree collide. -/
theorem C26_proof_by_element (H : HashFn) (leaves : List Bytes) (d : Bytes) (hd : d ∈ leaves) (t : Tree)
    (ht : Tree.new H (leaves.map (Node.fromBytes H)) = .ok t) :
    ∃ p, t.proofByElement H d = .ok p ∧ p.valid H t.rootHash = true ∧
      (p.leafData = d ∨ Collision H (leaves.map leafPre) (leaves.map leafPre)) := by
  have hne : leaves ≠ [] := List.ne_nil_of_mem hd
  obtain ⟨t', D, ht', hD, hp⟩ := tree_new H leaves hne
  rw [ht] at ht'; cases ht'
  obtain ⟨i, d', h1, h2, h3⟩ := hashIndex_get H leaves d hd
  obtain ⟨hi, hid⟩ := List.getElem?_eq_some_iff.1 h2
  obtain ⟨p, p1, p2, p3, _⟩ := proofByIndex_ok hp hD hne i hi
  refine ⟨p, ?_, p3, ?_⟩
  · unfold Tree.proofByElement Tree.proofByElementHash
    rw [hp.index, h1]; exact p1
  · rw [p2, hid]
    by_cases e : d' = d
    · exact Or.inl e
    · right
      refine ⟨leafPre d', List.mem_map.2 ⟨d', List.mem_of_getElem? h2, rfl⟩, leafPre d, List.mem_map.2 ⟨d, hd, rfl⟩, ?_, h3⟩
      intro h; unfold leafPre at h; simp at h; exact e h

/-- C26: data whose leaf hash does not occur in the tree has no proof. -/
theorem C26_absent_element (H : HashFn) (leaves : List Bytes) (hne : leaves ≠ []) (d : Bytes)
    (hd : ∀ x ∈ leaves, H (leafPre x) ≠ H (leafPre d)) (t : Tree)
    (ht : Tree.new H (leaves.map (Node.fromBytes H)) = .ok t) : t.proofByElement H d = .err := by
  obtain ⟨t', D, ht', hD, hp⟩ := tree_new H leaves hne
  rw [ht] at ht'; cases ht'
  unfold Tree.proofByElement Tree.proofByElementHash
  rw [hp.index]
  have : (hashIndex (leaves.map (Node.fromBytes H))).get (H (leafPre d)) = none := by
    unfold hashIndex
    have hf : (leaves.map (Node.fromBytes H)).filterMap Node.hash? = leaves.map (fun d => H (leafPre d)) := by
      rw [List.filterMap_map]
      have : (Node.hash? ∘ Node.fromBytes H) = (fun x => some (H (leafPre x))) := rfl
      rw [this]
      exact congrFun (List.filterMap_eq_map (f := fun x => H (leafPre x))) leaves
    rw [hf]
    rcases foldl_insert_mem (leaves.map (fun d => H (leafPre d))).zipIdx [] (H (leafPre d)) with ⟨i, h1, _⟩ | ⟨_, h2⟩
    · exfalso
      have := List.mem_zipIdx_iff_getElem?.1 h1
      simp only [List.getElem?_map, Option.map_eq_some_iff] at this
      obtain ⟨x, hx, he⟩ := this
      exact hd x (List.mem_of_getElem? hx) he
    · rw [h2]; rfl
  rw [this]

/-- The empty list of leaves gives a tree too; its root is all zeros. -/
theorem C26_empty (H : HashFn) : ∃ t, Tree.new H [] = .ok t ∧ t.rootHash = List.replicate 32 0#8 := by
  refine ⟨_, rfl, rfl⟩

/-- A tree with five leaves (odd, not a power of two). -/
example : ∃ t, Tree.new sumHash (([[1], [2, 2], [], [4], [5]] : List Bytes).map (Node.fromBytes sumHash)) = .ok t ∧
    (match t.proofByIndex 4 with
      | .ok p => p.leafData == [5] && p.valid sumHash t.rootHash && p.levels.length == 3
      | _ => false) = true := ⟨_, rfl, by decide +kernel⟩

/-! ## C27 -/

/-- C27: a proof of any length and with any sides that is valid for the root of a tree shows membership at the position
it spells out (and has the length of the tree's depth), or two distinct inputs hashed by tree and proof collide. -/
theorem C27_sound (H : HashFn) (leaves : List Bytes) (hne : leaves ≠ []) (t : Tree)
    (ht : Tree.new H (leaves.map (Node.fromBytes H)) = .ok t) (p : Proof) (hok : LevelsOk p.levels)
    (hv : p.valid H t.rootHash = true) :
    ∃ depth, IsRoot H leaves depth t.rootHash ∧
      ((p.levels.length = depth ∧ leaves[posOf p.levels]? = some p.leafData) ∨
        Collision H (treeInputs H leaves depth) (proofInputs H p)) := by
  obtain ⟨t', D, ht', hD, hp⟩ := tree_new H leaves hne
  rw [ht] at ht'; cases ht'
  obtain ⟨r, hr, _, hroot⟩ := heap_root hp hD hne
  rw [hr] at hv ⊢
  refine ⟨D, hroot, ?_⟩
  have hrun : runLevels H (H (leafPre p.leafData)) p.levels = r := by
    unfold Proof.valid proofRoot at hv
    exact of_decide_eq_true hv
  have := proof_sound H leaves D p.leafData D (Nat.le_refl _) p.levels 0 hok (by rw [hroot.2.2, hrun]; rfl)
  rcases this with ⟨h1, h2⟩ | h
  · left; exact ⟨h1, by simpa using h2⟩
  · exact Or.inr h

/-- Corollary: every valid proof of data that is not a leaf contains a collision with the tree. -/
theorem C27_forgery_collides (H : HashFn) (leaves : List Bytes) (hne : leaves ≠ []) (t : Tree)
    (ht : Tree.new H (leaves.map (Node.fromBytes H)) = .ok t) (p : Proof) (hok : LevelsOk p.levels)
    (hd : p.leafData ∉ leaves) (hv : p.valid H t.rootHash = true) :
    ∃ depth, Collision H (treeInputs H leaves depth) (proofInputs H p) := by
  obtain ⟨D, _, h | h⟩ := C27_sound H leaves hne t ht p hok hv
  · exact absurd (List.mem_of_getElem? h.2) hd
  · exact ⟨D, h⟩

/-- A genuine proof and one with a wrong side: the first is valid, the second is not. -/
example : let H := sumHash
    let a := H (leafPre [7])
    let r := H (nodePre (some (H (leafPre [3]))) (some a))
    (Proof.valid H { leafData := [3], levels := [{ hash := some a, side := .left }] } r = true) ∧
      (Proof.valid H { leafData := [3], levels := [{ hash := some a, side := .right }] } r = false) := by
  decide +kernel

/-! ## C28 -/

/-- C28: for every tree and every nonempty list of indices of leaves (in any order, with repetitions) the batch proof
exists, is valid for the root, and lists exactly the requested positions, in increasing order, with the leaf hashes. -/
theorem C28_complete (H : HashFn) (leaves : List Bytes) (hne : leaves ≠ []) (t : Tree)
    (ht : Tree.new H (leaves.map (Node.fromBytes H)) = .ok t) (idx : List Nat) (hidx : idx ≠ [])
    (hb : ∀ i ∈ idx, i < leaves.length) :
    ∃ b, t.proofByIndices idx = .ok b ∧ b.valid H t.rootHash = true ∧
      (∀ i, (∃ x ∈ b.indices, x.index = i) ↔ i ∈ idx) ∧
      (∀ x ∈ b.indices, ∃ d, leaves[x.index]? = some d ∧ x.hash = H (leafPre d)) ∧
      (b.indices.map Indexed.index).Pairwise (· < ·) := by
  obtain ⟨t', D, ht', hD, hp⟩ := tree_new H leaves hne
  rw [ht] at ht'; cases ht'
  obtain ⟨b, h1, h2, h3⟩ := proofByIndices_ok hp hD hne idx hidx hb
  refine ⟨b, h1, h2, ?_, ?_, ?_⟩
  · intro i
    rw [h3]
    constructor
    · rintro ⟨x, hx, rfl⟩
      obtain ⟨p, hp', rfl⟩ := List.mem_map.1 hx
      exact (mem_toSet idx p).1 hp'
    · intro hi
      exact ⟨_, List.mem_map.2 ⟨i, (mem_toSet idx i).2 hi, rfl⟩, rfl⟩
  · intro x hx
    rw [h3] at hx
    obtain ⟨p, hp', rfl⟩ := List.mem_map.1 hx
    have hlt := hb p ((mem_toSet idx p).1 hp')
    refine ⟨leaves[p], by simp [List.getElem?_eq_getElem hlt], ?_⟩
    simp [level, List.getElem?_eq_getElem hlt]
  · rw [h3]
    have : (indexedAt H leaves 0 (toSet idx)).map Indexed.index = toSet idx := by
      simp only [indexedAt, List.map_map]
      exact List.map_id _
    rw [this]
    exact sorted_toSet idx

/-- C28: no indices, or one beyond the leaves, give no proof. -/
theorem C28_bad_indices (H : HashFn) (leaves : List Bytes) (hne : leaves ≠ []) (t : Tree)
    (ht : Tree.new H (leaves.map (Node.fromBytes H)) = .ok t) (idx : List Nat)
    (hb : idx = [] ∨ ∃ i ∈ idx, leaves.length ≤ i) : t.proofByIndices idx = .err := by
  obtain ⟨t', D, ht', hD, hp⟩ := tree_new H leaves hne
  rw [ht] at ht'; cases ht'
  unfold Tree.proofByIndices
  rw [if_pos]
  rcases hb with rfl | ⟨i, hi, hl⟩
  · left; rfl
  · right
    rw [List.any_eq_true]
    refine ⟨i, (mem_toSet idx i).2 hi, ?_⟩
    rw [hp.internal, hp.leaf, if_neg (by omega)]
    split <;> rfl

/-- Leaves 1, 3 and 4 of a tree with five leaves. -/
example : ∃ t, Tree.new sumHash (([[1], [2, 2], [], [4], [5]] : List Bytes).map (Node.fromBytes sumHash)) = .ok t ∧
    (match t.proofByIndices [4, 1, 3, 1] with
      | .ok b => b.valid sumHash t.rootHash && b.indices.map Indexed.index == [1, 3, 4] && b.proofs.length == 4
      | _ => false) = true := ⟨_, rfl, by decide +kernel⟩

/-! ## C29 -/

/-- Finding for C29: positions are not authenticated.  For every hash function and every two leaves, the hash of leaf 0
listed at position 1 is accepted. -/
theorem C29_position_not_authenticated (H : HashFn) (x y : Bytes) :
    ∃ t, Tree.new H ([x, y].map (Node.fromBytes H)) = .ok t ∧
      Batch.valid H { indices := [{ index := 1, hash := H (leafPre x) }],
                      proofs := [{ hash := some (H (leafPre y)), side := .right }] } t.rootHash = true := by
  obtain ⟨t, D, ht, hD, hp⟩ := tree_new H [x, y] (by simp)
  refine ⟨t, ht, ?_⟩
  obtain ⟨r, hr, _, hroot⟩ := heap_root hp hD (by simp)
  have hD1 : D = 1 := by
    rcases hp.tight with h | h
    · omega
    · have : D < 2 := (Nat.pow_lt_pow_iff_right (a := 2) (by omega)).1 (by simpa using h)
      omega
  subst hD1
  have h1 := hroot.2.2
  simp only [level, List.map_cons, List.map_nil, pairPres, List.cons.injEq, and_true] at h1
  rw [hr, ← h1]
  simp only [Batch.valid, sortByIndex, insertByIndex, List.foldl_cons, List.foldl_nil]
  rw [validate_step H _ _ _ [_] [] rfl (by simp [validateLevel, pairOf, headPre]; rfl)]
  simp

/-- Finding for C29: a list with repeated positions may contain any hash at all: it is silently dropped. -/
theorem C29_duplicates_unchecked (H : HashFn) (a b c d junk : Bytes) :
    ∃ t, Tree.new H ([a, b, c, d].map (Node.fromBytes H)) = .ok t ∧
      Batch.valid H { indices := [{ index := 0, hash := H (leafPre a) }, { index := 0, hash := H (leafPre b) },
                                  { index := 0, hash := junk }],
                      proofs := [{ hash := none, side := .right },
                                 { hash := some (H (nodePre (some (H (leafPre c))) (some (H (leafPre d))))), side := .right }] }
        t.rootHash = true := by
  obtain ⟨t, D, ht, hD, hp⟩ := tree_new H [a, b, c, d] (by simp)
  refine ⟨t, ht, ?_⟩
  obtain ⟨r, hr, _, hroot⟩ := heap_root hp hD (by simp)
  have hD1 : D = 2 := by
    have h1 : 2 ≤ D := by
      by_contra hlt
      have : D = 1 := by omega
      subst this
      have := hp.size; simp at this
    rcases hp.tight with h | h
    · omega
    · have : D < 3 := (Nat.pow_lt_pow_iff_right (a := 2) (by omega)).1 (by simpa using h)
      omega
  subst hD1
  have h1 := hroot.2.2
  simp only [level, List.map_cons, List.map_nil, pairPres, List.cons.injEq, and_true] at h1
  rw [hr, ← h1]
  have hs : sortByIndex [{ index := 0, hash := H (leafPre a) }, { index := 0, hash := H (leafPre b) },
      { index := 0, hash := junk }] = [{ index := 0, hash := H (leafPre a) }, { index := 0, hash := H (leafPre b) },
      { index := 0, hash := junk }] := rfl
  simp only [Batch.valid, hs]
  rw [validate_step H _ _ _ [_, _] [_] rfl
    (by simp [validateLevel, pairOf, headPre]; exact ⟨⟨rfl, rfl⟩, rfl⟩)]
  rw [if_pos (by simp [pairOf, toSet, setInsert])]
  rw [validate_step H _ _ _ [_] [] (by simp [pairOf, toSet, setInsert]) (by simp [validateLevel, pairOf, headPre, toSet, setInsert]; rfl)]
  simp

/-- C29, the part that holds.  Missing: the position (`C29_position_not_authenticated`) and repeated positions
(`C29_duplicates_unchecked`).  If the positions are distinct and the proof is valid for the root of a tree, then every
listed hash occurs in the tree; if it is the hash of some leaf data, that data is a leaf; or the inputs hashed by tree
and proof contain a collision. -/
theorem C29_members_partial (H : HashFn) (leaves : List Bytes) (hne : leaves ≠ []) (t : Tree)
    (ht : Tree.new H (leaves.map (Node.fromBytes H)) = .ok t) (p : Batch) (hok : BatchOk p)
    (hnd : (p.indices.map Indexed.index).Nodup) (hv : p.valid H t.rootHash = true) :
    ∃ depth, IsRoot H leaves depth t.rootHash ∧
      (∀ x ∈ p.indices, ∀ d, x.hash = H (leafPre d) →
        d ∈ leaves ∨ Collision H (treeInputs H leaves depth) (leafPre d :: batchInputs H p)) ∧
      ((∀ x ∈ p.indices, ∃ k, k ≤ depth ∧ x.hash ∈ level H leaves k) ∨
        Collision H (treeInputs H leaves depth) (batchInputs H p)) := by
  obtain ⟨t', D, ht', hD, hp⟩ := tree_new H leaves hne
  rw [ht] at ht'; cases ht'
  obtain ⟨r, hr, _, hroot⟩ := heap_root hp hD hne
  rw [hr] at hv ⊢
  have key := batch_valid_sound H leaves D r hroot.2.2 p hok hnd hv
  refine ⟨D, hroot, fun x hx d hd => ?_, key⟩
  rcases key with h | ⟨u, hu, v, hv, huv⟩
  · obtain ⟨k, hk, hm⟩ := h x hx
    cases k with
    | zero =>
      simp only [level, List.mem_map] at hm
      obtain ⟨d', hd', he⟩ := hm
      by_cases e : d' = d
      · exact Or.inl (e ▸ hd')
      · right
        exact ⟨leafPre d', mem_treeInputs_leaf hd', leafPre d, by simp, by
          intro h; unfold leafPre at h; simp at h; exact e h, by rw [he, hd]⟩
    | succ k =>
      simp only [level, List.mem_map] at hm
      obtain ⟨pre, hpre, he⟩ := hm
      right
      refine ⟨pre, mem_treeInputs_pair (by omega) hpre, leafPre d, by simp, ?_, by rw [he, hd]⟩
      obtain ⟨a, b, _, _, rfl⟩ := mem_pairPres hpre
      intro h; simp [nodePre, leafPre] at h
  · exact Or.inr ⟨u, hu, v, by simp [hv], huv⟩

/-- The hypotheses of `C29_members_partial` hold for the proof of leaves 1, 3, 4 of a five leaf tree. -/
example : ∃ t, Tree.new sumHash (([[1], [2, 2], [], [4], [5]] : List Bytes).map (Node.fromBytes sumHash)) = .ok t ∧
    ∃ b, t.proofByIndices [4, 1, 3] = .ok b ∧ BatchOk b ∧ (b.indices.map Indexed.index).Nodup ∧
      b.valid sumHash t.rootHash = true := by
  obtain ⟨t, ht⟩ : ∃ t, Tree.new sumHash (([[1], [2, 2], [], [4], [5]] : List Bytes).map (Node.fromBytes sumHash)) = .ok t :=
    ⟨_, rfl⟩
  obtain ⟨b, h1, h2, h3, h4, h5⟩ := C28_complete sumHash _ (by simp) t ht [4, 1, 3] (by simp) (by simp)
  refine ⟨t, ht, b, h1, ⟨?_, ?_⟩, h5.imp (fun h => by omega), h2⟩
  · intro x hx
    obtain ⟨d, _, hd⟩ := h4 x hx
    rw [hd]; exact sumHash.len _
  · have hb : (match Tree.new sumHash (([[1], [2, 2], [], [4], [5]] : List Bytes).map (Node.fromBytes sumHash)) with
        | .ok t => match t.proofByIndices [4, 1, 3] with
          | .ok b => b.proofs.all (fun l => match l.hash with | some h => h.length == 32 | none => true)
          | _ => false
        | _ => false) = true := by decide +kernel
    rw [ht] at hb
    simp only [h1] at hb
    intro l hl h hh
    have := (List.all_eq_true.1 hb) l hl
    rw [hh] at this
    simpa using this

/-! ## C30 -/

/-- Finding for C30: a proof node whose hash is all zeros is read back as a node without hash. -/
theorem C30_zero_hash_lost : ∃ p : Batch, BatchOk p ∧ ∃ bs, p.ser = some bs ∧ ∃ q, Batch.parse bs = some (q, []) ∧ q ≠ p := by
  refine ⟨{ indices := [], proofs := [{ hash := some (List.replicate 32 0#8), side := .left }] }, ⟨by simp, ?_⟩, _, rfl,
    { indices := [], proofs := [{ hash := none, side := .left }] }, by decide +kernel, by simp⟩
  intro l hl h hh
  simp at hl; subst hl; simp at hh; subst hh; simp

/-- C30 without all-zero proof hashes (the missing case is `C30_zero_hash_lost`): whatever is written is read back
unchanged, from any stream. -/
theorem C30_roundtrip_partial (p : Batch) (hi : ∀ x ∈ p.indices, x.hash.length = 32)
    (hl : ∀ l ∈ p.proofs, ∀ h, l.hash = some h → h.length = 32 ∧ ∃ b ∈ h, b ≠ 0#8) (bs : Bytes) (h : p.ser = some bs)
    (rest : Bytes) : Batch.parse (bs ++ rest) = some (p, rest) :=
  batch_roundtrip p hi hl bs h rest

/-- C30: writing succeeds whenever all counts and positions fit in 32 bits. -/
theorem C30_writable (p : Batch) (h1 : p.indices.length < 2 ^ 32) (h2 : p.proofs.length < 2 ^ 32)
    (h3 : ∀ x ∈ p.indices, x.index < 2 ^ 32) : ∃ bs, p.ser = some bs := batch_ser_some p h1 h2 h3

theorem getU32Be_spells {s r : Bytes} {v : BitVec 32} (h : getU32Be s = some (v, r)) : s = putU32Be v ++ r := by
  unfold getU32Be at h
  obtain ⟨a, s1, h1, h⟩ := Parser.bind_eq_some.1 h
  obtain ⟨b, s2, h2, h⟩ := Parser.bind_eq_some.1 h
  obtain ⟨c, s3, h3, h⟩ := Parser.bind_eq_some.1 h
  obtain ⟨d, s4, h4, h⟩ := Parser.bind_eq_some.1 h
  have hu : ∀ {s s' : Bytes} {a : Byte}, getU8 s = some (a, s') → s = a :: s' := by
    intro s s' a h
    cases s with
    | nil => cases h
    | cons x l => cases h; rfl
  cases h
  rw [hu h1, hu h2, hu h3, hu h4]
  simp only [putU32Be, u32ToBe, u32OfBe, List.cons_append, List.nil_append, List.cons.injEq, and_true]
  refine ⟨?_, ?_, ?_, ?_⟩ <;>
  · apply BitVec.eq_of_getLsbD_eq
    intro i hi
    have : i = 0 ∨ i = 1 ∨ i = 2 ∨ i = 3 ∨ i = 4 ∨ i = 5 ∨ i = 6 ∨ i = 7 := by omega
    rcases this with rfl | rfl | rfl | rfl | rfl | rfl | rfl | rfl <;> simp [BitVec.getLsbD_of_ge]

theorem readExact_spells {n : Nat} {s b r : Bytes} (h : readExact n s = some (b, r)) : s = b ++ r ∧ b.length = n := by
  unfold readExact at h
  split at h
  · cases h
    exact ⟨(List.take_append_drop n s).symm, by simp; omega⟩
  · cases h

theorem replicateP_spells {α : Type} {p : Parser α} {ser : α → Option Bytes}
    (hp : ∀ s a r, p s = some (a, r) → ∃ bs, ser a = some bs ∧ s = bs ++ r) : ∀ (n : Nat) (s : Bytes) (l : List α) (r : Bytes),
    replicateP n p s = some (l, r) → l.length = n ∧ ∃ bss, l.mapM ser = some bss ∧ s = bss.flatten ++ r
  | 0, s, l, r, h => by cases h; exact ⟨rfl, [], rfl, rfl⟩
  | n + 1, s, l, r, h => by
    obtain ⟨a, s1, h1, h⟩ := Parser.bind_eq_some.1 h
    obtain ⟨as, s2, h2, h⟩ := Parser.bind_eq_some.1 h
    cases h
    obtain ⟨b, e1, e2⟩ := hp _ _ _ h1
    obtain ⟨hl, bss, e3, e4⟩ := replicateP_spells hp n _ _ _ h2
    refine ⟨by rw [List.length_cons, hl], b :: bss, ?_, ?_⟩
    · rw [List.mapM_cons, e1, e3]; rfl
    · rw [e2, e4, List.flatten_cons, List.append_assoc]

/-- C30: the encoding is canonical: whatever proof is read, writing it gives the bytes it was read from. -/
theorem C30_canonical (s r : Bytes) (p : Batch) (h : Batch.parse s = some (p, r)) : ∃ bs, p.ser = some bs ∧ s = bs ++ r := by
  unfold Batch.parse at h
  obtain ⟨n, s1, h1, h⟩ := Parser.bind_eq_some.1 h
  obtain ⟨k, s2, h2, h⟩ := Parser.bind_eq_some.1 h
  obtain ⟨is, s3, h3, h⟩ := Parser.bind_eq_some.1 h
  obtain ⟨ps, s4, h4, h⟩ := Parser.bind_eq_some.1 h
  cases h
  have hput : ∀ v : BitVec 32, putUsizeU32Be v.toNat = some (putU32Be v) := by
    intro v
    unfold putUsizeU32Be
    rw [if_pos v.isLt, BitVec.ofNat_toNat, BitVec.setWidth_eq]
  obtain ⟨li, bi, ei, fi⟩ := replicateP_spells (ser := putIndexed) (by
    intro s a r h
    unfold getIndexed at h
    obtain ⟨i, s1, h1, h⟩ := Parser.bind_eq_some.1 h
    obtain ⟨d, s2, h2, h⟩ := Parser.bind_eq_some.1 h
    cases h
    refine ⟨putU32Be i ++ d, ?_, ?_⟩
    · unfold putIndexed
      rw [hput]; rfl
    · rw [getU32Be_spells h1, (readExact_spells h2).1, List.append_assoc]) _ _ _ _ h3
  obtain ⟨lp, bp, ep, fp⟩ := replicateP_spells (ser := fun l => some (putLevel l)) (by
    intro s a r h
    refine ⟨_, rfl, ?_⟩
    unfold getLevel at h
    obtain ⟨d, s1, h1, h⟩ := Parser.bind_eq_some.1 h
    obtain ⟨b, s2, h2, h⟩ := Parser.bind_eq_some.1 h
    obtain ⟨sd, s3, h3, h⟩ := Parser.bind_eq_some.1 h
    obtain ⟨e1, l1⟩ := readExact_spells h1
    have e2 : s1 = b :: s2 := by
      cases s1 with
      | nil => cases h2
      | cons x l => cases h2; rfl
    have e3 : b = sd.toByte ∧ s2 = s3 := by
      unfold Side.ofByte at h3
      split at h3
      · cases h3; exact ⟨by assumption, rfl⟩
      · split at h3
        · cases h3; exact ⟨by assumption, rfl⟩
        · cases h3
    split at h
    · rename_i hz
      cases h
      have : d = List.replicate 32 0#8 := by
        rw [List.eq_replicate_iff]
        refine ⟨l1, fun x hx => ?_⟩
        simpa using List.all_eq_true.1 hz x hx
      rw [e1, e2, e3.1, e3.2, this]
      simp [putLevel]
    · cases h
      rw [e1, e2, e3.1, e3.2]
      simp [putLevel]) _ _ _ _ h4
  have ep' : bp = ps.map putLevel := by
    have : ∀ (l : List LevelNode) bss, l.mapM (fun l => some (putLevel l)) = some bss → bss = l.map putLevel := by
      intro l
      induction l with
      | nil => intro bss h; cases h; rfl
      | cons x l ih =>
        intro bss h
        rw [List.mapM_cons] at h
        cases hm : l.mapM (fun l => some (putLevel l)) with
        | none => rw [hm] at h; cases h
        | some q => rw [hm] at h; cases h; rw [List.map_cons, ← ih q hm]
    exact this _ _ ep
  refine ⟨putU32Be n ++ putU32Be k ++ bi.flatten ++ ps.flatMap putLevel, ?_, ?_⟩
  · unfold Batch.ser
    simp only [li, lp]
    rw [hput, hput, ei]; rfl
  · rw [getU32Be_spells h1, getU32Be_spells h2, fi, fp, ep']
    simp only [List.append_assoc, List.flatMap_def]

/-- A proof with two positions, a sibling and an empty sibling, written and read. -/
example : let p : Batch := { indices := [{ index := 3, hash := sumHash [1] }, { index := 9, hash := sumHash [2] }],
                             proofs := [{ hash := some (sumHash [5]), side := .left }, { hash := none, side := .right }] }
    (p.ser.bind (fun bs => Batch.parse bs)) = some (p, []) := by decide +kernel

end Verif
