import Verif.Proofs.MerkleBuild
import Verif.Proofs.FMap

set_option linter.unusedSimpArgs false
set_option linter.unusedVariables false

namespace Verif.Merkle
open Spec

/-- Neighbour position within a level. -/
def sib (q : Nat) : Nat := if q % 2 = 0 then q + 1 else q - 1

theorem getParent_pos (e q : Nat) : getParent (2 ^ (e + 1) - 1 + q) = some (2 ^ e - 1 + q / 2) := by
  have := Nat.two_pow_pos e
  obtain ⟨i, hi⟩ : ∃ i, 2 ^ (e + 1) - 1 + q = i + 1 := ⟨2 ^ (e + 1) - 1 + q - 1, by rw [Nat.pow_succ]; omega⟩
  rw [hi]; simp only [getParent, Option.some.injEq]
  rw [Nat.pow_succ] at hi; omega

theorem getSibling_pos (e q : Nat) : getSibling (2 ^ (e + 1) - 1 + q) = some (2 ^ (e + 1) - 1 + sib q) := by
  unfold getSibling
  rw [getParent_pos]
  have hpos := Nat.two_pow_pos e
  have hs := Nat.pow_succ 2 e
  by_cases h : q % 2 = 0
  · have e1 : getLeft (2 ^ e - 1 + q / 2) = 2 ^ (e + 1) - 1 + q := by unfold getLeft; omega
    have e2 : getRight (2 ^ e - 1 + q / 2) = 2 ^ (e + 1) - 1 + sib q := by
      unfold getRight sib; rw [if_pos h]; omega
    simp only [e1, ne_eq, not_true_eq_false, if_false, e2]
  · have e1 : getLeft (2 ^ e - 1 + q / 2) ≠ 2 ^ (e + 1) - 1 + q := by unfold getLeft; omega
    have e2 : getLeft (2 ^ e - 1 + q / 2) = 2 ^ (e + 1) - 1 + sib q := by
      unfold getLeft sib; rw [if_neg h]; omega
    show (if getLeft (2 ^ e - 1 + q / 2) ≠ _ then _ else _) = _
    rw [if_pos e1, e2]

theorem level_get_lt {H : HashFn} {leaves : List Bytes} {k q : Nat} {h : Bytes}
    (e : (level H leaves k)[q]? = some h) : q < (level H leaves k).length :=
  (List.getElem?_eq_some_iff.1 e).1

theorem sib_in_bounds {H : HashFn} {leaves : List Bytes} {D : Nat} {t : Tree} (hp : IsHeap H leaves D t) {k e q : Nat}
    (hk : k + (e + 1) = D) (hq : q < (level H leaves k).length) : 2 ^ (e + 1) - 1 + sib q < t.nodes.length := by
  have hpe := Nat.two_pow_pos (e + 1)
  have hle := level_le H leaves D hp.size k (by omega)
  have hde : D - k = e + 1 := by omega
  rw [hde] at hle
  have hs : sib q < 2 ^ (e + 1) := by
    rw [Nat.pow_succ] at hle ⊢
    unfold sib; split <;> omega
  rw [hp.len]
  cases k with
  | zero =>
    have : D = e + 1 := by omega
    subst this
    simp only [level, List.length_map] at hq
    unfold sib; split <;> omega
  | succ k =>
    have : 2 ^ (e + 2) ≤ 2 ^ D := Nat.pow_le_pow_right (by omega) (by omega)
    rw [Nat.pow_succ] at this
    omega

theorem hashAt_eq_of_at {nodes : List Node} {i : Nat} {n : Node} (h : at? nodes i = .ok n) : n.hash? = hashAt nodes i := by
  unfold at? at h
  unfold hashAt
  cases e : nodes[i]? with
  | none => rw [e] at h; cases h
  | some m => rw [e] at h; cases h; rfl

theorem proofLoop_level {H : HashFn} {leaves : List Bytes} {D : Nat} {t : Tree} (hp : IsHeap H leaves D t) {r : Bytes}
    (hr : level H leaves D = [r]) : ∀ (e k q : Nat) (h : Bytes), k + e = D → (level H leaves k)[q]? = some h →
    ∃ ls, proofLoop t.nodes (2 ^ e - 1 + q) = .ok ls ∧ ls.length = e ∧ posOf ls = q ∧
      ls.foldl (fun prev l => H (levelPre prev l)) h = r ∧ LevelsOk ls := by
  intro e
  induction e with
  | zero =>
    intro k q h hk hq
    have : k = D := by omega
    subst this
    rw [hr] at hq
    have hq0 : q = 0 := by
      cases q with
      | zero => rfl
      | succ q => simp at hq
    subst hq0
    refine ⟨[], ?_, rfl, rfl, ?_, ?_⟩
    · unfold proofLoop; rfl
    · simp at hq; exact hq.symm
    · intro l hl; cases hl
  | succ e ih =>
    intro k q h hk hq
    have hqlt := level_get_lt hq
    have hbound := sib_in_bounds hp hk hqlt
    have hle := level_le H leaves D hp.size k (by omega)
    have hde : D - k = e + 1 := by omega
    rw [hde] at hle
    have hsib : hashAt t.nodes (2 ^ (e + 1) - 1 + sib q) = (level H leaves k)[sib q]? := by
      have := heap_levels hp k (by omega) (sib q) (by rw [hde]; rw [Nat.pow_succ] at hle ⊢; unfold sib; split <;> omega)
      rw [hde] at this; exact this
    -- the parent's hash
    obtain ⟨ls, h1, h2, h3, h4, h5⟩ : ∃ ls, proofLoop t.nodes (2 ^ e - 1 + q / 2) = .ok ls ∧ ls.length = e ∧
        posOf ls = q / 2 ∧ ls.foldl (fun prev l => H (levelPre prev l)) (H (levelPre h
          { hash := (level H leaves k)[sib q]?, side := if q % 2 = 0 then Side.left else Side.right })) = r ∧
          LevelsOk ls := by
      refine ih (k + 1) (q / 2) _ (by omega) ?_
      rw [level_succ_get]
      by_cases hpar : q % 2 = 0
      · have e1 : 2 * (q / 2) = q := by omega
        have e2 : sib q = q + 1 := by unfold sib; rw [if_pos hpar]
        rw [e1, hq, e2]
        simp only [Option.map_some, Option.some.injEq, if_pos hpar]
        unfold levelPre
        cases (level H leaves k)[q + 1]? <;> rfl
      · have e1 : 2 * (q / 2) = q - 1 := by omega
        have e2 : sib q = q - 1 := by unfold sib; rw [if_neg hpar]
        have e3 : q - 1 + 1 = q := by omega
        rw [e1, e2, e3, hq, List.getElem?_eq_getElem (by omega : q - 1 < _)]
        simp only [Option.map_some, Option.some.injEq, if_neg hpar]
        rfl
    refine ⟨{ hash := (level H leaves k)[sib q]?, side := if q % 2 = 0 then Side.left else Side.right } :: ls,
      ?_, by simp [h2], ?_, h4, ?_⟩
    · unfold proofLoop
      rw [getSibling_pos]
      simp only
      rw [at?_ok hbound, Outcome.bind_ok]
      have hpar := getParent_pos e q
      split
      · rename_i hc; rw [hc] at hpar; cases hpar
      · rename_i par hc
        rw [hc] at hpar
        cases hpar
        rw [h1, Outcome.bind_ok]
        have hh : (t.nodes[2 ^ (e + 1) - 1 + sib q]).hash? = (level H leaves k)[sib q]? := by
          rw [← hsib, hashAt_lt hbound]
        rw [hh]
        have hside : (if 2 ^ (e + 1) - 1 + sib q = 2 ^ (e + 1) - 1 + q + 1 then Side.left else Side.right)
            = if q % 2 = 0 then Side.left else Side.right := by
          unfold sib
          by_cases hpar : q % 2 = 0
          · rw [if_pos hpar, if_pos (by omega), if_pos hpar]
          · rw [if_neg hpar, if_neg (by omega), if_neg hpar]
        rw [hside]; rfl
    · simp only [posOf, h3]
      by_cases hpar : q % 2 = 0
      · simp only [if_pos hpar]
        have : q / 2 + q / 2 = q := by omega
        unfold bitOf
        cases (level H leaves k)[sib q]? <;> simp <;> omega
      · have e2 : sib q = q - 1 := by unfold sib; rw [if_neg hpar]
        rw [e2, List.getElem?_eq_getElem (by omega : q - 1 < _)]
        simp only [if_neg hpar, bitOf]
        omega
    · intro l hl h' hh'
      rcases List.mem_cons.1 hl with rfl | hl
      · simp only at hh'
        exact level_hash_len H leaves k h' (List.mem_of_getElem? hh')
      · exact h5 l hl h' hh'

theorem proofByIndex_ok {H : HashFn} {leaves : List Bytes} {D : Nat} {t : Tree} (hp : IsHeap H leaves D t)
    (hD : 1 ≤ D) (hne : leaves ≠ []) (i : Nat) (hi : i < leaves.length) :
    ∃ p, t.proofByIndex i = .ok p ∧ p.leafData = leaves[i] ∧ p.valid H t.rootHash = true ∧ p.levels.length = D ∧
      posOf p.levels = i ∧ LevelsOk p.levels := by
  obtain ⟨r, hroot, _, _, _, hr⟩ := heap_root hp hD hne
  have hl : (level H leaves 0)[i]? = some (H (leafPre leaves[i])) := by
    simp [level, List.getElem?_eq_getElem hi]
  obtain ⟨ls, h1, h2, h3, h4, h5⟩ := proofLoop_level hp hr D 0 i _ (by omega) hl
  refine ⟨{ leafData := leaves[i], levels := ls }, ?_, rfl, ?_, h2, h3, h5⟩
  · unfold Tree.proofByIndex buildProof
    rw [hp.internal, Nat.add_comm i, hp.leaf, if_pos hi, List.getElem?_eq_getElem hi]
    simp only [Option.map_some, Node.fromBytes]
    rw [h1]; rfl
  · simp [Proof.valid, proofRoot, h4, hroot]

theorem proofByIndex_err {H : HashFn} {leaves : List Bytes} {D : Nat} {t : Tree} (hp : IsHeap H leaves D t) (i : Nat)
    (hi : leaves.length ≤ i) : t.proofByIndex i = .err := by
  unfold Tree.proofByIndex buildProof
  rw [hp.internal, Nat.add_comm i, hp.leaf, if_neg (by omega)]
  split <;> simp_all

/-! ### Lookup by element -/

theorem foldl_insert_mem {κ ν : Type} [DecidableEq κ] : ∀ (ps : List (κ × ν)) (m : FMap κ ν) (k : κ),
    (∃ v, (k, v) ∈ ps ∧ (ps.foldl (fun m p => FMap.insert m p.1 p.2) m).get k = some v) ∨
      ((∀ v, (k, v) ∉ ps) ∧ (ps.foldl (fun m p => FMap.insert m p.1 p.2) m).get k = m.get k) := by
  intro ps
  induction ps with
  | nil => intro m k; exact Or.inr ⟨by simp, rfl⟩
  | cons p ps ih =>
    intro m k
    obtain ⟨k', v'⟩ := p
    rcases ih (FMap.insert m k' v') k with ⟨v, h1, h2⟩ | ⟨h1, h2⟩
    · exact Or.inl ⟨v, by simp [h1], h2⟩
    · simp only [List.foldl_cons]
      rw [h2]
      by_cases e : k = k'
      · subst e
        exact Or.inl ⟨v', by simp, by rw [FMap.get_insert]; simp⟩
      · refine Or.inr ⟨?_, by rw [FMap.get_insert]; simp [Ne.symm e, e]⟩
        intro v hv
        rcases List.mem_cons.1 hv with h | h
        · cases h; exact e rfl
        · exact h1 v h

theorem hashIndex_get (H : HashFn) (leaves : List Bytes) (d : Bytes) (hd : d ∈ leaves) :
    ∃ i d', (hashIndex (leaves.map (Node.fromBytes H))).get (H (leafPre d)) = some i ∧ leaves[i]? = some d' ∧
      H (leafPre d') = H (leafPre d) := by
  have hf : (leaves.map (Node.fromBytes H)).filterMap Node.hash? = leaves.map (fun d => H (leafPre d)) := by
    rw [List.filterMap_map]
    have : (Node.hash? ∘ Node.fromBytes H) = (fun x => some (H (leafPre x))) := rfl
    rw [this]
    exact congrFun (List.filterMap_eq_map (f := fun x => H (leafPre x))) leaves
  unfold hashIndex
  rw [hf]
  obtain ⟨j, hj, hjd⟩ := List.mem_iff_getElem.1 hd
  rcases foldl_insert_mem (leaves.map (fun d => H (leafPre d))).zipIdx [] (H (leafPre d)) with ⟨i, h1, h2⟩ | ⟨h1, _⟩
  · have := List.mem_zipIdx_iff_getElem?.1 h1
    simp only [List.getElem?_map, Option.map_eq_some_iff] at this
    obtain ⟨d', hd', he⟩ := this
    exact ⟨i, d', h2, hd', he⟩
  · exfalso
    refine h1 j (List.mem_zipIdx_iff_getElem?.2 ?_)
    simp [List.getElem?_eq_getElem hj, hjd]

/-! ### Soundness of single proofs -/

theorem nodePre_inj {a b c d : Option Bytes} (ha : ∃ x, a = some x ∧ x.length = 32)
    (hc : ∃ x, c = some x ∧ x.length = 32) (hb : ∀ x, b = some x → x.length = 32) (hd : ∀ x, d = some x → x.length = 32)
    (h : nodePre a b = nodePre c d) : a = c ∧ b = d := by
  obtain ⟨x, rfl, hx⟩ := ha
  obtain ⟨y, rfl, hy⟩ := hc
  simp only [nodePre, Option.getD_some, List.cons.injEq, true_and] at h
  obtain ⟨h1, h2⟩ := List.append_inj h (by omega)
  refine ⟨by rw [h1], ?_⟩
  cases b with
  | none =>
    cases d with
    | none => rfl
    | some v =>
      have := hd v rfl
      simp at h2
      rw [h2] at this
      simp at this
  | some u =>
    cases d with
    | none =>
      have := hb u rfl
      simp at h2
      rw [h2] at this
      simp at this
    | some v => simpa using h2

/-- Hash computed after processing `ls`. -/
def runLevels (H : HashFn) (h : Bytes) (ls : List LevelNode) : Bytes := ls.foldl (fun prev l => H (levelPre prev l)) h

theorem posOf_append (ls : List LevelNode) (l : LevelNode) :
    posOf (ls ++ [l]) = posOf ls + 2 ^ ls.length * posOf [l] := by
  induction ls with
  | nil => simp [posOf]
  | cons a ls ih =>
    have : 2 * (2 ^ ls.length * posOf [l]) = 2 ^ ls.length * 2 * posOf [l] := by
      rw [← Nat.mul_assoc, Nat.mul_comm 2]
    have e1 : posOf (a :: ls ++ [l]) = bitOf a + 2 * posOf (ls ++ [l]) := rfl
    have e2 : posOf (a :: ls) = bitOf a + 2 * posOf ls := rfl
    rw [e1, e2, ih, List.length_cons, Nat.pow_succ]
    omega

theorem levelInputs_append (H : HashFn) (ls : List LevelNode) (l : LevelNode) : ∀ h,
    levelInputs H h (ls ++ [l]) = levelInputs H h ls ++ [levelPre (runLevels H h ls) l] := by
  induction ls with
  | nil => intro h; rfl
  | cons a ls ih => intro h; simp only [List.cons_append, levelInputs, ih]; rfl

theorem runLevels_len (H : HashFn) (d : Bytes) (ls : List LevelNode) : (runLevels H (H (leafPre d)) ls).length = 32 := by
  unfold runLevels
  rw [← List.reverse_reverse ls]
  cases ls.reverse with
  | nil => exact H.len _
  | cons a l => simp [List.foldl_append, H.len]

theorem mem_treeInputs_pair {H : HashFn} {leaves : List Bytes} {D k : Nat} (hk : k < D) {x : Bytes}
    (h : x ∈ pairPres (level H leaves k)) : x ∈ treeInputs H leaves D := by
  unfold treeInputs
  refine List.mem_append.2 (Or.inr (List.mem_flatMap.2 ⟨k, by simpa using hk, h⟩))

theorem mem_treeInputs_leaf {H : HashFn} {leaves : List Bytes} {D : Nat} {d : Bytes} (h : d ∈ leaves) :
    leafPre d ∈ treeInputs H leaves D :=
  List.mem_append.2 (Or.inl (List.mem_map.2 ⟨d, h, rfl⟩))

theorem proof_sound (H : HashFn) (leaves : List Bytes) (D : Nat) (data : Bytes) :
    ∀ (k : Nat), k ≤ D → ∀ (ls : List LevelNode) (q : Nat), LevelsOk ls →
      (level H leaves k)[q]? = some (runLevels H (H (leafPre data)) ls) →
      (ls.length = k ∧ leaves[q * 2 ^ k + posOf ls]? = some data) ∨
        Collision H (treeInputs H leaves D) (leafPre data :: levelInputs H (H (leafPre data)) ls) := by
  intro k
  induction k with
  | zero =>
    intro hk ls q hok h
    simp only [level, List.getElem?_map, Option.map_eq_some_iff] at h
    obtain ⟨d, hd, hh⟩ := h
    rcases List.eq_nil_or_concat ls with rfl | ⟨ls', l, rfl⟩
    · by_cases e : d = data
      · subst e; left; simpa [posOf] using hd
      · right
        exact ⟨leafPre d, mem_treeInputs_leaf (List.mem_of_getElem? hd), leafPre data, by simp,
          by simpa [leafPre] using e, by simpa [runLevels] using hh⟩
    · right
      simp only [List.concat_eq_append] at *
      refine ⟨leafPre d, mem_treeInputs_leaf (List.mem_of_getElem? hd),
        levelPre (runLevels H (H (leafPre data)) ls') l, ?_, ?_, ?_⟩
      · rw [levelInputs_append]; simp
      · unfold levelPre leafPre nodePre; split <;> simp
      · rw [hh]; simp [runLevels, List.foldl_append]
  | succ k ih =>
    intro hk ls q hok h
    simp only [level, List.getElem?_map, Option.map_eq_some_iff] at h
    obtain ⟨pre, hpre, hh⟩ := h
    have hmem : pre ∈ treeInputs H leaves D := mem_treeInputs_pair (by omega) (List.mem_of_getElem? hpre)
    rw [pairPres_get, Option.map_eq_some_iff] at hpre
    obtain ⟨a, ha, rfl⟩ := hpre
    have halen := level_hash_len H leaves k a (List.mem_of_getElem? ha)
    have hblen : ∀ x, (level H leaves k)[2 * q + 1]? = some x → x.length = 32 :=
      fun x hx => level_hash_len H leaves k x (List.mem_of_getElem? hx)
    rcases List.eq_nil_or_concat ls with rfl | ⟨ls', l, rfl⟩
    · right
      refine ⟨_, hmem, leafPre data, by simp, ?_, by simpa [runLevels] using hh⟩
      unfold leafPre nodePre; simp
    · simp only [List.concat_eq_append] at *
      have hok' : LevelsOk ls' := fun x hx => hok x (by simp [hx])
      have hlok : ∀ x, l.hash = some x → x.length = 32 := hok l (by simp)
      have hprev := runLevels_len H data ls'
      have hrun : runLevels H (H (leafPre data)) (ls' ++ [l])
          = H (levelPre (runLevels H (H (leafPre data)) ls') l) := by simp [runLevels, List.foldl_append]
      rw [hrun] at hh
      by_cases heq : nodePre (some a) ((level H leaves k)[2 * q + 1]?)
          = levelPre (runLevels H (H (leafPre data)) ls') l
      swap
      · right
        exact ⟨_, hmem, _, by rw [levelInputs_append]; simp, heq, hh⟩
      -- the running hash is one of the two children
      have key : ∃ c, c ≤ 1 ∧ posOf [l] = c ∧
          (level H leaves k)[2 * q + c]? = some (runLevels H (H (leafPre data)) ls') := by
        unfold levelPre at heq
        cases hlh : l.hash with
        | none =>
          simp only [hlh] at heq
          have := nodePre_inj ⟨a, rfl, halen⟩ ⟨_, rfl, hprev⟩ hblen (by simp) heq
          exact ⟨0, by omega, by simp [posOf, bitOf, hlh], by rw [Nat.add_zero, ha, this.1]⟩
        | some x =>
          cases hls : l.side with
          | left =>
            simp only [hlh, hls] at heq
            have := nodePre_inj ⟨a, rfl, halen⟩ ⟨_, rfl, hprev⟩ hblen (by simpa using hlok x hlh) heq
            exact ⟨0, by omega, by simp [posOf, bitOf, hlh, hls], by rw [Nat.add_zero, ha, this.1]⟩
          | right =>
            simp only [hlh, hls] at heq
            have := nodePre_inj ⟨a, rfl, halen⟩ ⟨x, rfl, hlok x hlh⟩ hblen (by simpa using hprev) heq
            exact ⟨1, by omega, by simp [posOf, bitOf, hlh, hls], this.2⟩
      obtain ⟨c, hc1, hc2, hc3⟩ := key
      rcases ih (by omega) ls' (2 * q + c) hok' hc3 with ⟨h1, h2⟩ | hcol
      · left
        refine ⟨by simp [h1], ?_⟩
        rw [posOf_append, hc2, h1, ← h2]
        congr 1
        rw [Nat.pow_succ, Nat.add_mul]
        have e1 : q * (2 ^ k * 2) = 2 * q * 2 ^ k := by rw [Nat.mul_comm (2 ^ k) 2, ← Nat.mul_assoc, Nat.mul_comm q 2]
        have e2 : 2 ^ k * c = c * 2 ^ k := Nat.mul_comm _ _
        omega
      · right
        obtain ⟨x, hx, y, hy, hxy⟩ := hcol
        refine ⟨x, hx, y, ?_, hxy⟩
        rw [levelInputs_append]
        rcases List.mem_cons.1 hy with rfl | hy
        · simp
        · simp [hy]

end Verif.Merkle
