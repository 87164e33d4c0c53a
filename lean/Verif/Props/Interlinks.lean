import Verif.Proofs.Nipopow
import Verif.Props.Merkle
import Verif.Props.Header

/-!
# C31, C33, C57, C58: interlink vectors, common ancestors, proofs of interlinks
-/

set_option linter.unusedSimpArgs false
set_option linter.unusedVariables false

namespace Verif
open Merkle Spec

/-! ## C31 -/

theorem pack_runs (mode : Mode) (rs : List (Nat × Bytes)) (hr : Runs rs) (hne : rs ≠ []) (hc : ∀ r ∈ rs, r.1 ≤ 255)
    (hl : rs.length ≤ 256) : packInterlinks mode (expandRuns rs) = .ok (packedFrom 0 rs) := by
  cases rs with
  | nil => exact absurd rfl hne
  | cons r rs =>
    obtain ⟨n, id⟩ := r
    have h1 := hr.pos (n, id) (by simp)
    have h2 := hc (n, id) (by simp)
    simp only at h1 h2
    obtain ⟨k, rfl⟩ : ∃ k, n = k + 1 := ⟨n - 1, by omega⟩
    have e : expandRuns ((k + 1, id) :: rs) = id :: (List.replicate k id ++ expandRuns rs) := by
      simp [expandRuns, List.replicate_succ]
    rw [e]
    simp only [packInterlinks]
    rw [packLoop_run mode k _ _ _ _ (by omega), Nat.add_comm 1 k,
      packLoop_spec mode rs 0 (k + 1) id (fun r h => ⟨hr.pos r (by simp [h]), hc r (by simp [h])⟩) hr.distinct (by simp at hl; omega)]

theorem pack_long (rs : List (Nat × Bytes)) (hr : Runs rs) (h : (∃ r ∈ rs, 255 < r.1) ∨ 256 < rs.length) :
    packInterlinks .debug (expandRuns rs) = .panic := by
  cases rs with
  | nil => rfl
  | cons r rs =>
    obtain ⟨n, id⟩ := r
    have h1 := hr.pos (n, id) (by simp)
    simp only at h1
    obtain ⟨k, rfl⟩ : ∃ k, n = k + 1 := ⟨n - 1, by omega⟩
    have e : expandRuns ((k + 1, id) :: rs) = id :: (List.replicate k id ++ expandRuns rs) := by
      simp [expandRuns, List.replicate_succ]
    rw [e]
    simp only [packInterlinks]
    by_cases hk : 255 < k + 1
    · exact packLoop_long k _ _ _ _ (by omega) (by omega)
    · rw [packLoop_run .debug k _ _ _ _ (by omega), Nat.add_comm 1 k]
      refine packLoop_debug rs 0 (k + 1) id (by omega) (fun r h => hr.pos r (by simp [h])) hr.distinct ?_
      rcases h with ⟨r, hm, h⟩ | h
      · rcases List.mem_cons.1 hm with rfl | hm
        · simp only at h; omega
        · exact .inl ⟨r, hm, h⟩
      · simp only [List.length_cons] at h
        right; omega

/-- C31: whatever a build with overflow checks packs is unpacked to the same vector, fits the limits of an extension, and so does
an extension that has these fields among others. -/
theorem C31_roundtrip (links : List Bytes) (h32 : ∀ x ∈ links, x.length = 32) (fs : List ExtField)
    (h : packInterlinks .debug links = .ok fs) :
    unpackInterlinks fs = .ok links ∧ extensionNew fs = .ok fs ∧
      ∀ ext : List ExtField, (ext.filter fun f => decide (f.k0 = interlinkPrefix)) = fs → unpackInterlinks ext = .ok links := by
  obtain ⟨rs, hr, rfl, _, _, _⟩ := exists_runs links h32
  by_cases hb : (∃ r ∈ rs, 255 < r.1) ∨ 256 < rs.length
  · rw [pack_long rs hr hb] at h; cases h
  · have hne : rs ≠ [] := by rintro rfl; cases h
    have hc : ∀ r ∈ rs, r.1 ≤ 255 := fun r hm => by
      by_contra hh; exact hb (.inl ⟨r, hm, by omega⟩)
    rw [pack_runs .debug rs hr hne hc (by omega)] at h
    obtain rfl : _ = fs := by injection h
    have hu := unpack_packed rs 0 (fun r hm => ⟨hc r hm, hr.id r hm⟩)
    refine ⟨hu, ?_, ?_⟩
    · unfold extensionNew
      rw [if_pos]
      rw [List.all_eq_true]
      intro f hf
      rw [packed_size rs 0 hr.id f hf]; rfl
    · intro ext he
      rw [← unpack_filter, he, hu]

/-- C31: packing succeeds in both kinds of builds, with the same result, for every vector of 1 to 255 ids.  (Not for every
non-empty vector: see `C31_debug` and `C31_violation_release`.) -/
theorem C31_pack_partial (mode : Mode) (links : List Bytes) (hne : links ≠ []) (h32 : ∀ x ∈ links, x.length = 32)
    (hl : links.length ≤ 255) : ∃ fs, packInterlinks mode links = .ok fs ∧ unpackInterlinks fs = .ok links := by
  obtain ⟨rs, hr, rfl, h1, h2, h3⟩ := exists_runs links h32
  refine ⟨_, pack_runs mode rs hr (h1 hne) (fun r hm => by have := h3 r hm; omega) (by omega), ?_⟩
  exact unpack_packed rs 0 (fun r hm => ⟨by have := h3 r hm; omega, hr.id r hm⟩)

/-- C31: exactly which vectors a build with overflow checks packs: runs of at most 255 equal ids, at most 256 of them, and at
least one; otherwise it panics. -/
theorem C31_debug (rs : List (Nat × Bytes)) (hr : Runs rs) :
    (packInterlinks .debug (expandRuns rs) = .panic ↔ rs = [] ∨ (∃ r ∈ rs, 255 < r.1) ∨ 256 < rs.length) ∧
      packInterlinks .debug (expandRuns rs) ≠ .err := by
  by_cases hne : rs = []
  · subst hne; exact ⟨⟨fun _ => .inl rfl, fun _ => rfl⟩, by decide⟩
  · by_cases hb : (∃ r ∈ rs, 255 < r.1) ∨ 256 < rs.length
    · rw [pack_long rs hr hb]; exact ⟨⟨fun _ => .inr hb, fun _ => rfl⟩, by decide⟩
    · have hc : ∀ r ∈ rs, r.1 ≤ 255 := fun r hm => by
        by_contra hh; exact hb (.inl ⟨r, hm, by omega⟩)
      rw [pack_runs .debug rs hr hne hc (by omega)]
      refine ⟨⟨fun h => (by cases h), fun h => ?_⟩, by simp⟩
      rcases h with h | h
      · exact absurd h hne
      · exact absurd h hb

/-- C31, violation: without overflow checks a run of 256 equal ids is packed with count 0, so that unpacking loses it. -/
theorem C31_violation_release (id : Bytes) (h : id.length = 32) :
    ∃ fs, packInterlinks .release (List.replicate 256 id) = .ok fs ∧ unpackInterlinks fs = .ok [] := by
  refine ⟨[packRun 0 0 id], ?_, ?_⟩
  · have e : List.replicate 256 id = id :: (List.replicate 254 id ++ [id]) := by
      rw [← List.replicate_succ', ← List.replicate_succ]
    rw [e]
    simp only [packInterlinks]
    rw [packLoop_run .release 254 _ _ _ _ (by decide)]
    simp only [packLoop]
    rw [if_pos trivial]
    rfl
  · simp only [unpackInterlinks, packRun]
    rw [if_pos trivial, if_pos h]
    rfl

/-- A vector with two runs, packed and unpacked; its runs; and one with 300 equal ids on which the checked build panics. -/
example : let a : Bytes := List.replicate 32 1; let b : Bytes := List.replicate 32 2
    packInterlinks .debug [a, b, b, b] = .ok [⟨1, 0, 1 :: a⟩, ⟨1, 1, 3 :: b⟩] ∧ Runs [(1, a), (3, b)] ∧
      unpackInterlinks [⟨0, 0, [5]⟩, ⟨1, 0, 1 :: a⟩, ⟨1, 1, 3 :: b⟩] = .ok [a, b, b, b] ∧ Runs [(300, a)] ∧
      packInterlinks .debug (expandRuns [(300, a)]) = .panic := by
  refine ⟨by decide, ⟨by decide, by decide, by simp⟩, by decide, ⟨by decide, by decide, by simp⟩, ?_⟩
  exact pack_long _ ⟨by decide, by decide, by simp⟩ (.inl ⟨_, List.mem_singleton.2 rfl, by decide⟩)

/-- C31: updating with a header of level `n` keeps the first id, never shortens the vector, puts the header's id into the slots
of levels `1..n` and leaves the other slots alone. -/
theorem C31_update {G : Type} (W : Pow) (h : Header G) (links : List Bytes) (hh : h.height ≠ 1) (hne : links ≠ []) (l : BitVec 32)
    (hl : W.maxLevel h = .ok l) (n : Nat) (hn : l.toInt = n) :
    ∃ r, updateInterlinks W h links = .ok r ∧ r[0]? = links[0]? ∧ links.length ≤ r.length ∧ r.length = max links.length (n + 1) ∧
      ∀ μ, 1 ≤ μ → μ < r.length → slot r μ = if μ ≤ n then some h.id else slot links μ := by
  obtain ⟨r, h1, h2, h3, h4⟩ := update_spec W h links hh hne l hl n hn
  exact ⟨r, h1, h2, by omega, h3, h4⟩

/-- C31: the vector after a whole chain: genesis first, and in the slot of each level the id of the last header of that level or
higher. -/
theorem C31_chain {G : Type} (W : Pow) (lv : Header G → Nat) (g : Header G) (hg : g.height = 1) (hs : List (Header G)) (hl : Levels W lv hs) :
    ∃ r, linksAfter W [] (g :: hs) = .ok r ∧ r[0]? = some g.id ∧ r.length = hs.foldl (fun a h => max a (lv h + 1)) 1 ∧
      ∀ μ, 1 ≤ μ → μ < r.length → slot r μ = (hs.reverse.find? fun h => decide (μ ≤ lv h)).map Header.id := by
  have e : linksAfter W [] (g :: hs) = linksAfter W [g.id] hs := by
    show (updateInterlinks W g [] >>= _) = _
    unfold updateInterlinks
    rw [if_pos hg]; rfl
  rw [e]
  obtain ⟨r, h1, h2, h3, h4⟩ := linksAfter_spec W lv hs [g.id] (by simp) hl
  refine ⟨r, h1, by rw [h2]; rfl, h3, fun μ hμ hlt => ?_⟩
  rw [h4 μ hμ hlt]
  cases hf : (hs.reverse.find? fun h => decide (μ ≤ lv h)) with
  | some x => rfl
  | none =>
    exfalso
    have hall : ∀ h ∈ hs, lv h < μ := by
      intro h hh
      have := List.find?_eq_none.1 hf h (by simpa using hh)
      simpa using this
    have hb : ∀ (hs : List (Header G)) a, a ≤ μ → (∀ h ∈ hs, lv h < μ) → hs.foldl (fun a h => max a (lv h + 1)) a ≤ μ := by
      intro hs
      induction hs with
      | nil => intro a ha _; exact ha
      | cons x hs ih =>
        intro a ha hx
        have := hx x (by simp)
        exact ih _ (by dsimp only; omega) (fun h hh => hx h (by simp [hh]))
    have := hb hs 1 hμ hall
    rw [h3] at hlt
    exact absurd hlt (Nat.not_lt.2 this)

/-- C31, violation: a header of negative level (its hit misses its target) makes the update panic, in either build; so does an
empty vector. -/
theorem C31_violation_negative {G : Type} (W : Pow) (h : Header G) (links : List Bytes) (hh : h.height ≠ 1) (l : BitVec 32)
    (hl : W.maxLevel h = .ok l) (hn : l.toInt < 0 ∨ links = []) : updateInterlinks W h links = .panic := by
  unfold updateInterlinks
  rw [if_neg hh]
  cases links with
  | nil => rfl
  | cons g t =>
    dsimp only
    rw [hl]
    show (if l.toInt < 0 then _ else _) = _
    rw [if_pos (by rcases hn with h | h; exact h; cases h)]

/-- Levels for the examples: the difference of the binary logarithms, rounded down. -/
def toyPow : Pow where
  H := sumHash
  P := PowScheme.default
  lvl t h := BitVec.ofInt 32 (Nat.log2 t.toNat - Nat.log2 h.toNat)

/-- A header of version 1 whose hit `3 * 2^(253 - level)` gives the level asked for (target: half the group order). -/
def toyHeader (height : Nat) (level : Nat) (parent : Nat) (tag : Nat) : Header (Fin 3) :=
  { headerV1 with id := natBe 32 tag, parentId := natBe 32 parent, height := BitVec.ofNat 32 height, nBits := 0x01020000#64,
                  solution := { headerV1.solution with distance := some (3 * 2 ^ (253 - level)) } }

/-- A chain of five headers with levels 1, 0, 3, 1 behind the first, and its interlinks. -/
example : linksAfter toyPow [] [toyHeader 1 0 0 1, toyHeader 2 1 1 2, toyHeader 3 0 2 3, toyHeader 4 3 3 4, toyHeader 5 1 4 5] =
      .ok [natBe 32 1, natBe 32 4, natBe 32 4, natBe 32 5] ∧
    toyPow.maxLevel (toyHeader 4 3 3 4) = .ok 3 ∧ (toyHeader 4 3 3 4).height ≠ 1 := by
  decide +kernel

/-- A header of negative level. -/
example : toyPow.maxLevel { toyHeader 4 0 3 4 with nBits := 0x01080000#64 } = .ok (-2) ∧ (-2 : BitVec 32).toInt < 0 := by
  decide +kernel

/-! ## C33 -/

section
variable {G : Type} [DecidableEq G]

/-- C33: for chains of increasing heights with the same first header, the result is the highest header that both have. -/
theorem C33_highest (left right : List (Header G)) (hl : Rising left) (hr : Rising right) (g : Header G) (h1 : left.head? = some g)
    (h2 : right.head? = some g) : ∃ h, lca left right = some h ∧ HighestCommon left right h ∧
      ∀ h', HighestCommon left right h' → h' = h := by
  have hgm : g ∈ left.filter fun x => decide (x ∈ right) := by
    rw [List.mem_filter]
    exact ⟨List.mem_of_head? h1, by simpa using List.mem_of_head? h2⟩
  obtain ⟨h, e, _⟩ := getLast_rising (List.Pairwise.filter _ hl) hgm
  have hm : h ∈ left.filter fun x => decide (x ∈ right) := List.mem_of_getLast? e
  have hm2 := List.mem_filter.1 hm
  have hc : HighestCommon left right h := by
    refine ⟨hm2.1, by simpa using hm2.2, fun x hx hx' => ?_⟩
    obtain ⟨l, e', hle⟩ := getLast_rising (List.Pairwise.filter (fun x => decide (x ∈ right)) hl)
      (List.mem_filter.2 ⟨hx, by simpa using hx'⟩)
    rw [e] at e'
    obtain rfl := Option.some.inj e'
    exact hle
  refine ⟨h, by rw [lca_eq left right hl hr (by rw [h1, h2]), e], hc, fun h' hc' => ?_⟩
  exact rising_inj hl hc'.1 hc.1 (Nat.le_antisymm (hc.2.2 _ hc'.1 hc'.2.1) (hc'.2.2 _ hc.1 hc.2.1))

/-- C33: chains with different first headers have no common ancestor. -/
theorem C33_other_genesis (a b : Header G) (left right : List (Header G)) (h : a ≠ b) : lca (a :: left) (b :: right) = none := by
  unfold lca
  dsimp only
  rw [if_pos h]

/-- C33: whatever the chains are, a result is a header of both. -/
theorem C33_common (left right : List (Header G)) (h : Header G) (e : lca left right = some h) : h ∈ left ∧ h ∈ right := by
  have key : (lcaOuter right left (0, [])).2.getLast? = some h → h ∈ left ∧ h ∈ right := by
    intro e
    rcases lcaOuter_mem right left (0, []) h (List.mem_of_getLast? e) with h1 | h1
    · simp at h1
    · exact h1
  unfold lca at e
  split at e
  · split at e
    · cases e
    · exact key e
  · exact key e

/-- C33: the order of the arguments does not matter. -/
theorem C33_symm (left right : List (Header G)) (hl : Rising left) (hr : Rising right) (hh : left.head? = right.head?) :
    lca left right = lca right left := by
  cases hg : left.head? with
  | none =>
    have h1 : left = [] := List.head?_eq_none_iff.1 hg
    have h2 : right = [] := List.head?_eq_none_iff.1 (hh ▸ hg)
    subst h1; subst h2; rfl
  | some g =>
    obtain ⟨h, e, c, _⟩ := C33_highest left right hl hr g hg (hh ▸ hg)
    obtain ⟨h', e', _, u⟩ := C33_highest right left hr hl g (hh ▸ hg) hg
    rw [e, e', u h ⟨c.2.1, c.1, fun x a b => c.2.2 x b a⟩]

end

/-- Two branches from a fork at height 3, one with a gap; and chains not ordered by height, for which the result (height 2) is
not the highest common header (height 4). -/
example : let a := toyHeader 1 0 0 1; let b := toyHeader 2 1 1 2; let c := toyHeader 3 0 2 3
    let d := toyHeader 4 0 3 4; let e := toyHeader 4 0 3 5; let f := toyHeader 5 0 5 6
    lca [a, b, c, d] [a, c, e, f] = some c ∧ Rising [a, b, c, d] ∧ Rising [a, c, e, f] ∧ lca [a, d, b] [a, d, b] = some b := by
  unfold Rising
  decide +kernel

/-! ## C58 -/

theorem packed_keys (rs : List (Nat × Bytes)) (ix : Nat) (h : ix + rs.length ≤ 256) : ((packedFrom ix rs).map fun f => (f.k0, f.k1)).Nodup := by
  rw [List.nodup_iff_injective_getElem]
  intro a b e
  obtain ⟨a, ha⟩ := a
  obtain ⟨b, hb⟩ := b
  simp only [List.length_map] at ha hb
  simp only [List.getElem_map, Prod.mk.injEq] at e
  obtain ⟨a1, a2⟩ := packed_get rs ix a _ (List.getElem?_eq_getElem ha)
  obtain ⟨b1, b2⟩ := packed_get rs ix b _ (List.getElem?_eq_getElem hb)
  have h2 := e.2
  rw [a2, b2] at h2
  have h3 := congrArg BitVec.toNat h2
  simp only [BitVec.toNat_ofNat] at h3
  rw [Nat.mod_eq_of_lt (by omega), Nat.mod_eq_of_lt (by omega)] at h3
  apply Fin.ext
  show a = b
  omega

/-- The leaves of the tree over an extension. -/
theorem extension_leaves (H : HashFn) (fs : List ExtField) :
    extensionTree H fs = Tree.new H ((fs.map kvToLeaf).map (Node.fromBytes H)) := by
  unfold extensionTree; rw [List.map_map]; rfl

/-- C58: the proof made for an extension that has interlinks is valid for the Merkle root of this extension; it speaks about
interlink fields only, and, if no key occurs twice, about all of them. -/
theorem C58_interlink_proof (H : HashFn) (fs : List ExtField) (hx : ∃ f ∈ fs, f.k0 = interlinkPrefix) :
    ∃ t b, extensionTree H fs = .ok t ∧ interlinkProof H fs = .ok b ∧ b.valid H t.rootHash = true ∧
      (∀ x ∈ b.indices, ∃ f ∈ fs, f.k0 = interlinkPrefix ∧ x.hash = H (leafPre (kvToLeaf f))) ∧
      ((fs.map fun f => (f.k0, f.k1)).Nodup → ∀ f ∈ fs, f.k0 = interlinkPrefix → ∃ x ∈ b.indices, x.hash = H (leafPre (kvToLeaf f))) := by
  obtain ⟨f0, hf0, hp0⟩ := hx
  have hne : fs.map kvToLeaf ≠ [] := by
    intro h; rw [List.map_eq_nil_iff] at h; subst h; simp at hf0
  obtain ⟨t, D, ht, hD, hp⟩ := tree_new H (fs.map kvToLeaf) hne
  have het : extensionTree H fs = .ok t := by rw [extension_leaves, ht]
  -- the index of a field
  have hget : ∀ f ∈ fs, ∃ i d', t.elementsHashIndex.get (H (leafPre (kvToLeaf f))) = some i ∧ (fs.map kvToLeaf)[i]? = some d' ∧
      H (leafPre d') = H (leafPre (kvToLeaf f)) := by
    intro f hf
    rw [hp.index]
    exact hashIndex_get H (fs.map kvToLeaf) (kvToLeaf f) (List.mem_map_of_mem hf)
  let keys := (fs.map fun f => (f.k0, f.k1)).filter fun k => decide (k.1 = interlinkPrefix)
  have hk0 : (f0.k0, f0.k1) ∈ keys := by
    refine List.mem_filter.2 ⟨List.mem_map.2 ⟨f0, hf0, rfl⟩, by simpa using hp0⟩
  -- what the indices are
  have hidx : ∀ i, i ∈ batchIndices H t fs keys ↔ ∃ k ∈ keys, ∃ f ∈ fs, (fs.find? fun f => decide ((f.k0, f.k1) = k)) = some f ∧
      t.elementsHashIndex.get (H (leafPre (kvToLeaf f))) = some i := by
    intro i
    unfold batchIndices
    rw [List.mem_filterMap]
    constructor
    · rintro ⟨k, hk, h⟩
      obtain ⟨f, h1, h2⟩ := Option.bind_eq_some_iff.1 h
      exact ⟨k, hk, f, List.mem_of_find?_eq_some h1, h1, h2⟩
    · rintro ⟨k, hk, f, _, h1, h2⟩
      exact ⟨k, hk, by rw [h1]; exact h2⟩
  have hfind : ∀ f ∈ fs, ∃ f', (fs.find? fun x => decide ((x.k0, x.k1) = (f.k0, f.k1))) = some f' ∧ f' ∈ fs ∧ (f'.k0, f'.k1) = (f.k0, f.k1) := by
    intro f hf
    cases hh : (fs.find? fun x => decide ((x.k0, x.k1) = (f.k0, f.k1))) with
    | none => exact absurd (List.find?_eq_none.1 hh f hf) (by simp)
    | some f' => exact ⟨f', rfl, List.mem_of_find?_eq_some hh, by simpa using List.find?_some hh⟩
  have hnonempty : batchIndices H t fs keys ≠ [] := by
    obtain ⟨f', h1, h2, h3⟩ := hfind f0 hf0
    obtain ⟨i, d', e1, _, _⟩ := hget f' h2
    exact List.ne_nil_of_mem ((hidx i).2 ⟨_, hk0, f', h2, h1, e1⟩)
  have hbound : ∀ i ∈ batchIndices H t fs keys, i < (fs.map kvToLeaf).length := by
    intro i hi
    obtain ⟨k, _, f, hf, _, h⟩ := (hidx i).1 hi
    obtain ⟨j, d', e1, e2, _⟩ := hget f hf
    rw [h] at e1
    obtain rfl := Option.some.inj e1
    exact (List.getElem?_eq_some_iff.1 e2).1
  obtain ⟨b, b1, b2, b3, b4, _⟩ := C28_complete H (fs.map kvToLeaf) hne t ht _ hnonempty hbound
  refine ⟨t, b, het, ?_, b2, ?_, ?_⟩
  · unfold interlinkProof
    dsimp only
    rw [if_neg (List.ne_nil_of_mem hk0)]
    unfold extensionBatchProof
    rw [het]
    exact b1
  · intro x hx
    obtain ⟨k, hk, f, hf, h1, h2⟩ := (hidx x.index).1 ((b3 x.index).1 ⟨x, hx, rfl⟩)
    obtain ⟨j, d', e1, e2, e3⟩ := hget f hf
    rw [h2] at e1
    obtain rfl := Option.some.inj e1
    obtain ⟨d, e4, e5⟩ := b4 x hx
    rw [e2] at e4
    obtain rfl := Option.some.inj e4
    refine ⟨f, hf, ?_, by rw [e5, e3]⟩
    have hkk : (f.k0, f.k1) = k := by simpa using List.find?_some h1
    have := (List.mem_filter.1 hk).2
    rw [← hkk] at this
    simpa using this
  · intro hnd f hf hpf
    obtain ⟨f', h1, h2, h3⟩ := hfind f hf
    have hff : f' = f := List.inj_on_of_nodup_map hnd h2 hf h3
    subst hff
    obtain ⟨i, d', e1, e2, e3⟩ := hget f' hf
    obtain ⟨x, hx, hxi⟩ := (b3 i).2 ((hidx i).2 ⟨(f'.k0, f'.k1), List.mem_filter.2 ⟨List.mem_map.2 ⟨f', hf, rfl⟩, by simpa using hpf⟩,
      f', hf, h1, e1⟩)
    refine ⟨x, hx, ?_⟩
    obtain ⟨d, e4, e5⟩ := b4 x hx
    rw [hxi, e2] at e4
    obtain rfl := Option.some.inj e4
    rw [e5, e3]

theorem pack_field (mode : Mode) (links : List Bytes) (fs : List ExtField) (h : packInterlinks mode links = .ok fs) :
    ∃ f ∈ fs, f.k0 = interlinkPrefix := by
  have hpk : ∀ (l : List Bytes) (ix c : Nat) (a : Bytes) fs, packLoop mode l ix c a = .ok fs → ∃ f ∈ fs, f.k0 = interlinkPrefix := by
    intro l
    induction l with
    | nil => intro ix c a fs h; cases h; exact ⟨_, List.mem_singleton.2 rfl, rfl⟩
    | cons b l ih =>
      intro ix c a fs h
      simp only [packLoop] at h
      split at h
      · obtain ⟨_, _, h⟩ := Outcome.bind_eq_ok.1 h
        exact ih _ _ _ _ h
      · obtain ⟨_, _, h⟩ := Outcome.bind_eq_ok.1 h
        obtain ⟨_, _, h⟩ := Outcome.bind_eq_ok.1 h
        cases h
        exact ⟨_, List.mem_cons_self, rfl⟩
  cases links with
  | nil => cases h
  | cons a l => exact hpk _ _ _ _ _ h

/-- C58: if the extension of a block consists of the packed interlinks alone, the proof made for it passes
`check_interlinks_proof`.  (Not for other extensions: see `C58_violation_other_fields`.) -/
theorem C58_checked_partial {G : Type} (mode : Mode) (H : HashFn) (h : Header G) (links : List Bytes) (hne : links ≠ []) (fs : List ExtField)
    (hfs : packInterlinks mode links = .ok fs) :
    ∃ b, interlinkProof H fs = .ok b ∧ PoPowHeader.checkInterlinks mode H { header := h, interlinks := links, proof := b } = .ok true := by
  obtain ⟨t, b, h1, h2, h3, _⟩ := C58_interlink_proof H fs (pack_field mode links fs hfs)
  refine ⟨b, h2, ?_⟩
  unfold PoPowHeader.checkInterlinks
  dsimp only
  rw [if_neg (by simp [hne]), hfs]
  show (extensionTree H fs >>= _) = _
  rw [h1]
  show Outcome.ok (Batch.valid H b t.rootHash) = _
  rw [h3]

/-- C58, violation: a block whose extension has a field besides the interlinks (as most blocks have: the protocol parameters).
The proof made for it is valid for the root of the extension, and `check_interlinks_proof` refuses it. -/
theorem C58_violation_other_fields : ∃ (fs : List ExtField) (links : List Bytes) (t : Tree) (b : Batch),
    unpackInterlinks fs = .ok links ∧ extensionTree sumHash fs = .ok t ∧ interlinkProof sumHash fs = .ok b ∧
      b.valid sumHash t.rootHash = true ∧
      ∀ h : Header (Fin 3), PoPowHeader.checkInterlinks .debug sumHash { header := h, interlinks := links, proof := b } = .ok false := by
  have hp : ∃ f ∈ ([⟨0, 1, [0, 0, 0, 7]⟩, ⟨1, 0, 1 :: List.replicate 32 3⟩, ⟨1, 1, 2 :: List.replicate 32 4⟩] : List ExtField), f.k0 = interlinkPrefix :=
    ⟨⟨1, 0, 1 :: List.replicate 32 3⟩, by simp, rfl⟩
  obtain ⟨t, b, h1, h2, h3, _⟩ := C58_interlink_proof sumHash _ hp
  refine ⟨_, [List.replicate 32 3, List.replicate 32 4, List.replicate 32 4], t, b, by decide, h1, h2, h3, fun h => ?_⟩
  have key : (match interlinkProof sumHash [⟨0, 1, [0, 0, 0, 7]⟩, ⟨1, 0, 1 :: List.replicate 32 3⟩, ⟨1, 1, 2 :: List.replicate 32 4⟩] with
      | .ok b => (match PoPowHeader.checkInterlinks .debug sumHash
          { header := headerV2, interlinks := [List.replicate 32 3, List.replicate 32 4, List.replicate 32 4], proof := b } with
        | .ok r => !r
        | _ => false)
      | _ => false) = true := by decide +kernel
  rw [h2] at key
  dsimp only at key
  have e : ∀ h' : Header (Fin 3), PoPowHeader.checkInterlinks .debug sumHash
      { header := h', interlinks := [List.replicate 32 3, List.replicate 32 4, List.replicate 32 4], proof := b } =
      PoPowHeader.checkInterlinks .debug sumHash
      { header := headerV2, interlinks := [List.replicate 32 3, List.replicate 32 4, List.replicate 32 4], proof := b } := fun _ => rfl
  rw [e h]
  generalize PoPowHeader.checkInterlinks .debug sumHash
      { header := headerV2, interlinks := [List.replicate 32 3, List.replicate 32 4, List.replicate 32 4], proof := b } = o at key
  cases o with
  | ok r => cases r <;> simp_all
  | err => simp at key
  | panic => simp at key

/-! ## C57 -/

/-- C57, violation: `check_interlinks_proof` is not tied to the header.  For every vector of 1 to 255 ids there is a proof that
is accepted with whatever header it is attached to. -/
theorem C57_violation_any_header {G : Type} (mode : Mode) (H : HashFn) (links : List Bytes) (hne : links ≠ []) (h32 : ∀ x ∈ links, x.length = 32)
    (hl : links.length ≤ 255) : ∃ b : Batch, b.indices ≠ [] ∧
      ∀ h : Header G, PoPowHeader.checkInterlinks mode H { header := h, interlinks := links, proof := b } = .ok true := by
  obtain ⟨rs, hr, rfl, h1, h2, h3⟩ := exists_runs links h32
  have hpk := pack_runs mode rs hr (h1 hne) (fun r hm => by have := h3 r hm; omega) (by omega)
  have hx : ∃ f ∈ packedFrom 0 rs, f.k0 = interlinkPrefix := by
    cases rs with
    | nil => exact absurd rfl (h1 hne)
    | cons r rs => exact ⟨_, List.mem_cons_self, rfl⟩
  obtain ⟨t, b, e1, e2, e3, e4, e5⟩ := C58_interlink_proof H _ hx
  refine ⟨b, ?_, fun h => ?_⟩
  · intro hb
    obtain ⟨f, hf, hpf⟩ := hx
    obtain ⟨x, hx', _⟩ := e5 (packed_keys rs 0 (by omega)) f hf hpf
    rw [hb] at hx'
    simp at hx'
  · unfold PoPowHeader.checkInterlinks
    dsimp only
    rw [if_neg (by simp [hne]), hpk]
    show (extensionTree H _ >>= _) = _
    rw [e1]
    show Outcome.ok (Batch.valid H b t.rootHash) = _
    rw [e3]

/-- C57, violation: a header read from the network with a proof but without interlinks makes the check panic. -/
theorem C57_violation_panic {G : Type} (mode : Mode) (H : HashFn) (h : Header G) (b : Batch) (hb : b.indices ≠ [] ∨ b.proofs ≠ []) :
    PoPowHeader.checkInterlinks mode H { header := h, interlinks := [], proof := b } = .panic := by
  unfold PoPowHeader.checkInterlinks
  dsimp only
  rw [if_neg (by rcases hb with h | h <;> simp [h])]
  rfl

/-- C57, what does hold: an accepted proof with interlinks is a valid Merkle proof for the tree of these very interlinks; any
field whose leaf hash it lists is one of theirs, or a collision is at hand.  (Missing: that the tree is the one the header
commits to, see `C57_violation_any_header`.) -/
theorem C57_members_partial {G : Type} (H : HashFn) (p : PoPowHeader G) (hne : p.interlinks ≠ []) (hok : BatchOk p.proof)
    (hnd : (p.proof.indices.map Indexed.index).Nodup) (hc : p.checkInterlinks .debug H = .ok true) :
    ∃ fs, packInterlinks .debug p.interlinks = .ok fs ∧ ∃ depth,
      ∀ x ∈ p.proof.indices, ∀ f : ExtField, x.hash = H (leafPre (kvToLeaf f)) →
        f ∈ fs ∨ Collision H (treeInputs H (fs.map kvToLeaf) depth) (leafPre (kvToLeaf f) :: batchInputs H p.proof) := by
  unfold PoPowHeader.checkInterlinks at hc
  rw [if_neg (by simp [hne])] at hc
  obtain ⟨fs, h1, hc⟩ := Outcome.bind_eq_ok.1 hc
  obtain ⟨t, h2, hc⟩ := Outcome.bind_eq_ok.1 hc
  have hv : p.proof.valid H t.rootHash = true := by injection hc
  have hfne : fs.map kvToLeaf ≠ [] := by
    intro h
    rw [List.map_eq_nil_iff] at h
    obtain ⟨f, hf, _⟩ := pack_field _ _ _ h1
    rw [h] at hf
    simp at hf
  rw [extension_leaves] at h2
  obtain ⟨d, _, h3, _⟩ := C29_members_partial H (fs.map kvToLeaf) hfne t h2 p.proof hok hnd hv
  refine ⟨fs, h1, d, fun x hx f hf => ?_⟩
  rcases h3 x hx _ hf with h | h
  · left
    obtain ⟨f', hf', e⟩ := List.mem_map.1 h
    have : f' = f := by
      cases f; cases f'
      simp only [kvToLeaf, List.cons.injEq] at e
      simp [e]
    exact this ▸ hf'
  · exact .inr h

/-- Interlinks with their proof, accepted; the proof lists two fields and has the shape asked for. -/
example : let links : List Bytes := [List.replicate 32 3, List.replicate 32 4, List.replicate 32 4]
    (match packInterlinks .debug links with
      | .ok fs => (match interlinkProof sumHash fs with
        | .ok b => (match PoPowHeader.checkInterlinks .debug sumHash { header := headerV2, interlinks := links, proof := b } with
            | .ok r => r
            | _ => false) && b.indices.map Indexed.index == [0, 1] && b.indices.all (fun x => x.hash.length == 32) &&
              b.proofs.all (fun l => match l.hash with | some h => h.length == 32 | none => true)
        | _ => false)
      | _ => false) = true := by decide +kernel

end Verif
