import Verif.Proofs.Autolykos
import Verif.Spec.ChainGen
import Verif.Proofs.Header
import Verif.Props.Interlinks
import Verif.Proofs.MerkleBuild
import Mathlib.Algebra.Group.Basic

set_option linter.unusedSimpArgs false
set_option linter.unusedVariables false

namespace Verif.ChainGen
open Spec Merkle
variable {G : Type}

theorem startBits_one : decodeCompact startBits = 1 := by decide

theorem startBits_lt : startBits.toNat < 2 ^ 32 := by decide

theorem order_nat : curveOrder = (groupOrder : Nat) := by decide

theorem order_lt : curveOrder < ((2 ^ (8 * 255 - 1) : Nat) : Int) := by
  rw [order_nat]
  exact Int.ofNat_lt.2 (Nat.lt_of_lt_of_le (show groupOrder < 2 ^ 256 by decide) (Nat.pow_le_pow_right (by decide) (by decide)))

theorem order_pos : 0 < curveOrder := by decide

/-! ## Hashes in trees -/

theorem hash_len (H : HashFn) : ∀ (j : Nat) (nodes r : List Node),
    (∀ n ∈ nodes, ∀ x, n.hash? = some x → x.length = 32) → buildNodes H j nodes = .ok r →
    ∀ n ∈ r, ∀ x, n.hash? = some x → x.length = 32 := by
  intro j
  induction j with
  | zero => intro nodes r h e; injection e with e; subst e; exact h
  | succ j ih =>
    intro nodes r h e
    obtain ⟨l, h1, e⟩ := Outcome.bind_eq_ok.1 e
    obtain ⟨rr, h2, e⟩ := Outcome.bind_eq_ok.1 e
    obtain ⟨n, h3, e⟩ := Outcome.bind_eq_ok.1 e
    refine ih _ _ ?_ e
    intro m hm x hx
    rcases List.mem_or_eq_of_mem_set hm with hm | rfl
    · exact h m hm x hx
    · unfold combine at h3
      split at h3
      · injection h3 with h3; subst h3; injection hx with hx; subst hx; exact H.len _
      · injection h3 with h3; subst h3; injection hx with hx; subst hx; exact H.len _
      · injection h3 with h3; subst h3; cases hx
      · cases h3

theorem root_len (H : HashFn) (ds : List Bytes) (t : Tree)
    (h : Tree.new H (ds.map (Node.fromBytes H)) = .ok t) : (t.rootHashSpecial H).length = 32 := by
  unfold Tree.new at h
  obtain ⟨b, h1, h2⟩ := Outcome.bind_eq_ok.1 h
  injection h2 with h2
  subst h2
  have hb := hash_len H _ _ _ ?_ h1
  · unfold Tree.rootHashSpecial
    dsimp only
    cases hn : b[0]? with
    | none => exact H.len _
    | some n =>
      cases hx : n.hash? with
      | none => simp [hx, H.len]
      | some x => simpa [hx] using hb n (List.mem_of_getElem? hn) x hx
  · intro n hn x hx
    rcases List.mem_append.1 hn with hn | hn
    · obtain ⟨_, rfl⟩ := List.mem_replicate.1 hn
      cases hx
    · unfold padEven at hn
      have : n ∈ ds.map (Node.fromBytes H) ∨ n = .empty := by
        split at hn
        · simpa [or_comm] using hn
        · exact .inl hn
      rcases this with hn | rfl
      · obtain ⟨d, _, rfl⟩ := List.mem_map.1 hn
        injection hx with hx; subst hx; exact H.len _
      · cases hx

theorem ext_root_len (H : HashFn) (fs : List ExtField) (t : Tree)
    (h : extensionTree H fs = .ok t) : (t.rootHashSpecial H).length = 32 := by
  refine root_len H (fs.map kvToLeaf) t ?_
  rw [← h]; unfold extensionTree; rw [List.map_map]; rfl

theorem tx_root_len (H : HashFn) (txs : List Tx) (v : Byte) (x : Bytes)
    (h : transactionsRoot H txs v = .ok x) : x.length = 32 := by
  unfold transactionsRoot at h
  obtain ⟨t, h1, h2⟩ := Outcome.bind_eq_ok.1 h
  injection h2 with h2
  subst h2
  split at h1
  · exact root_len H (txs.map fun t => H t.toSign) t (by rw [← h1, List.map_map]; rfl)
  · exact root_len H (txs.map fun t => H t.toSign ++ t.proofs.flatten) t (by rw [← h1, List.map_map]; rfl)

theorem special_root (H : HashFn) (ds : List Bytes) (t : Tree) (h : Tree.new H (ds.map (Node.fromBytes H)) = .ok t) :
    MerkleRoot H ds (t.rootHashSpecial H) := by
  by_cases hne : ds = []
  · subst hne
    left
    refine ⟨rfl, ?_⟩
    have e : Tree.new H (([] : List Bytes).map (Node.fromBytes H)) = .ok { nodes := [], elementsHashIndex := [], internalNodes := 0 } := by
      simp [Tree.new, padEven, nextPow2, npow2Loop, buildNodes, hashIndex, Outcome.pure_eq]
    rw [e] at h
    injection h with h
    subst h
    rfl
  · obtain ⟨t', D, ht, hD, hp⟩ := tree_new H ds hne
    rw [h] at ht
    injection ht with ht
    subst ht
    obtain ⟨r, _, hr, hroot⟩ := heap_root hp hD hne
    right
    refine ⟨D, ?_⟩
    have : t.rootHashSpecial H = r := by
      unfold Tree.rootHashSpecial
      unfold hashAt at hr
      rw [hr]; rfl
    rw [this]; exact hroot

theorem special_root_ext (H : HashFn) (fs : List ExtField) (t : Tree) (h : extensionTree H fs = .ok t) :
    MerkleRoot H (fs.map kvToLeaf) (t.rootHashSpecial H) :=
  special_root H _ t (by rw [← h]; unfold extensionTree; rw [List.map_map]; rfl)

theorem special_root_tx (H : HashFn) (txs : List Tx) (x : Bytes) (h : transactionsRoot H txs 1 = .ok x) :
    MerkleRoot H (txs.map fun t => H t.toSign) x := by
  unfold transactionsRoot at h
  obtain ⟨t, h1, h2⟩ := Outcome.bind_eq_ok.1 h
  injection h2 with h2
  subst h2
  rw [if_pos rfl] at h1
  exact special_root H _ t (by rw [← h1, List.map_map]; rfl)

theorem special_root_tx_later (H : HashFn) (txs : List Tx) (v : Byte) (hv : v ≠ 1) (x : Bytes) (h : transactionsRoot H txs v = .ok x) :
    MerkleRoot H (txs.map fun t => H t.toSign ++ t.proofs.flatten) x := by
  unfold transactionsRoot at h
  obtain ⟨t, h1, h2⟩ := Outcome.bind_eq_ok.1 h
  injection h2 with h2
  subst h2
  rw [if_neg hv] at h1
  exact special_root H _ t (by rw [← h1, List.map_map]; rfl)

/-! ## One block -/

variable [DecidableEq G]

theorem distance_bounds (E : Env G) (msg hb : Bytes) (N x : Nat) (nonce : Bytes) (d : Int)
    (h : distance E 1 msg hb N x nonce = .ok d) : 0 ≤ d ∧ d < curveOrder := by
  unfold distance at h
  obtain ⟨s, h1, h⟩ := Outcome.bind_eq_ok.1 h
  obtain ⟨i, h2, h⟩ := Outcome.bind_eq_ok.1 h
  obtain ⟨m, h3, h⟩ := Outcome.bind_eq_ok.1 h
  injection h with h
  subst h
  rw [if_pos rfl]
  have hp := order_pos
  exact ⟨Int.emod_nonneg _ (by omega), Int.emod_lt_of_pos _ hp⟩

theorem search_first (target : Int) (d : Bytes → Outcome Int) (hd : ∀ n x, d n = .ok x → x ≤ target) (n j : Nat) (f : Option (Bytes × Int))
    (h : search target d (n + 1) j = .ok f) : ∃ x, d (nonceBytes j) = .ok x ∧ f = some (nonceBytes j, x) := by
  unfold search at h
  obtain ⟨x, h1, h2⟩ := Outcome.bind_eq_ok.1 h
  rw [if_pos (hd _ _ h1)] at h2
  injection h2 with h2
  exact ⟨x, h1, h2.symm⟩

/-- What `prove_block` makes in version 1. -/
theorem proveBlock_ok (E : Env G) (parent : Option (Header G)) (ts : BitVec 64) (ext : List ExtField) (r : Rand) (b : Block G)
    (h : proveBlock E parent 1 ts ext r = .ok b) :
    ∃ txRoot ph t d s, transactionsRoot E.H E.txs 1 = .ok txRoot ∧ parentOf E.mode parent = .ok ph ∧ extensionTree E.H ext = .ok t ∧
      distance E 1 (E.H (draft E 1 ts ph (E.H r.adProofs) txRoot (t.rootHashSpecial E.H)).serWithoutPow) (natBe 4 ph.2.toNat) (2 ^ 26) r.x
        (nonceBytes 0) = .ok d ∧
      b.extension = ext ∧ ∃ sol : AutolykosSolution G,
        sol = { minerPk := E.pub E.sk, onetimePk := some (E.pub r.x), nonce := nonceBytes 0, distance := some d } ∧
        sol.ser E.pc 1 = .ok s ∧
        b.header = { draft E 1 ts ph (E.H r.adProofs) txRoot (t.rootHashSpecial E.H) with
          id := E.H ((draft E 1 ts ph (E.H r.adProofs) txRoot (t.rootHashSpecial E.H)).serWithoutPow ++ s), solution := sol } := by
  unfold proveBlock at h
  obtain ⟨txRoot, h1, h⟩ := Outcome.bind_eq_ok.1 h
  obtain ⟨ph, h2, h⟩ := Outcome.bind_eq_ok.1 h
  obtain ⟨t, h3, h⟩ := Outcome.bind_eq_ok.1 h
  obtain ⟨f, h4, h⟩ := Outcome.bind_eq_ok.1 h
  obtain ⟨h', h5, h⟩ := Outcome.bind_eq_ok.1 h
  injection h with h
  subst h
  have ht : curveOrder.tdiv (decodeCompact (draft E 1 ts ph (E.H r.adProofs) txRoot (t.rootHashSpecial E.H)).nBits) = curveOrder := by
    show curveOrder.tdiv (decodeCompact startBits) = _
    rw [startBits_one, Int.tdiv_one]
  rw [ht, show (2 ^ 64 - 1 : Nat) = (2 ^ 64 - 2) + 1 from by decide] at h4
  obtain ⟨d, h6, rfl⟩ := search_first _ _ (fun n x hx => Int.le_of_lt (distance_bounds E _ _ _ _ _ _ hx).2) _ _ _ h4
  unfold sealed at h5
  dsimp only at h5
  split at h5
  · next s hs =>
    injection h5 with h5
    exact ⟨txRoot, ph, t, d, s, h1, h2, h3, h6, rfl, _, rfl, hs, h5.symm⟩
  · cases h5

theorem nonceBytes_len (j : Nat) : (nonceBytes j).length = 8 := natBe_length _ _

/-- The header of a version 1 block: good, with its own id and a hit that meets the target. -/
theorem proveBlock_header (E : Env G) (parent : Option (Header G))
    (hp : ∀ p, parent = some p → p.id.length = 32) (ts : BitVec 64) (ext : List ExtField) (r : Rand) (b : Block G)
    (h : proveBlock E parent 1 ts ext r = .ok b) :
    b.extension = ext ∧ GoodBlockHeader b.header ∧ b.header.version = 1 ∧ (∃ s, b.header.ser E.pc = .ok s ∧ b.header.id = E.H s) ∧
      (∃ ph, parentOf E.mode parent = .ok ph ∧ b.header.parentId = ph.1 ∧ b.header.height = ph.2) ∧
      (∃ t, extensionTree E.H ext = .ok t ∧ b.header.extensionRoot = t.rootHashSpecial E.H) ∧
      transactionsRoot E.H E.txs 1 = .ok b.header.transactionRoot ∧ b.header.adProofsRoot = E.H r.adProofs ∧
      b.header.timestamp = ts ∧ b.header.nBits = startBits ∧ b.header.id.length = 32 ∧
      ∃ d, b.header.solution.distance = some d ∧ 0 ≤ d ∧ d < curveOrder := by
  obtain ⟨txRoot, ph, t, d, s, h1, h2, h3, h4, h5, sol, hsol, h6, h7⟩ := proveBlock_ok E parent ts ext r b h
  obtain ⟨hd0, hd1⟩ := distance_bounds E _ _ _ _ _ _ h4
  have hph : ph.1.length = 32 := by
    unfold parentOf at h2
    split at h2
    · next p =>
      obtain ⟨x, h8, h9⟩ := Outcome.bind_eq_ok.1 h2
      injection h9 with h9
      subst h9
      exact hp p rfl
    · injection h2 with h2; subst h2; exact List.length_replicate
  subst hsol
  rw [h7]
  refine ⟨h5, ⟨hph, E.H.len _, List.length_replicate, tx_root_len E.H _ _ _ h1, ext_root_len E.H _ _ h3, rfl, startBits_lt,
    nonceBytes_len 0, fun _ => ⟨rfl, d, rfl, ?_, ?_⟩, fun hv => absurd rfl hv⟩, rfl, ⟨_, ?_, rfl⟩, ⟨ph, h2, rfl, rfl⟩, ⟨t, h3, rfl⟩, h1, rfl, rfl,
    rfl, E.H.len _, d, rfl, hd0, hd1⟩
  · exact Int.le_trans (Int.neg_nonpos_of_nonneg (Int.natCast_nonneg _)) hd0
  · exact Int.lt_trans hd1 order_lt
  · unfold Header.ser
    dsimp only
    rw [show (draft E 1 ts ph (E.H r.adProofs) txRoot (t.rootHashSpecial E.H)).version = 1 from rfl, h6]
    rfl

/-! ## Chains -/

/-- What holds of the blocks of a generated chain: block number `n` (from 0). -/
structure Inv (E : Env G) (n : Nat) (b : Block G) (links : List Bytes) : Prop where
  height : b.header.height.toNat = n + 1
  id : b.header.id.length = 32
  level : ∃ l, E.pow.maxLevel b.header = .ok l ∧ 0 ≤ l.toInt
  unpack : unpackInterlinks b.extension = .ok links
  links32 : ∀ x ∈ links, x.length = 32
  first : n = 0 → b.extension = [] ∧ links = []
  rest : n ≠ 0 → links ≠ [] ∧ packInterlinks E.mode links = .ok b.extension ∧ (E.mode = .debug ∨ links.length ≤ 255)

theorem maxLevel_v1 (E : Env G) (hl : LevelsNonneg E.lvl) (h : Header G) (hv : h.version = 1) (hn : h.nBits = startBits) (d : Int)
    (hd : h.solution.distance = some d) (h0 : 0 ≤ d) (h1 : d < curveOrder) : ∃ l, E.pow.maxLevel h = .ok l ∧ 0 ≤ l.toInt := by
  unfold Pow.maxLevel
  by_cases hh : h.height = 1
  · rw [if_pos hh]; exact ⟨_, rfl, by decide⟩
  · rw [if_neg hh, hn, startBits_one, if_neg (by decide), Int.tdiv_one]
    unfold PowScheme.powHit
    rw [if_pos hv, hd]
    exact ⟨_, rfl, hl _ _ h0 (Int.le_of_lt h1)⟩

/-- The update of an interlink vector of 32 byte ids has 32 byte ids. -/
theorem update_ids (W : Pow) (h : Header G) (links r : List Bytes) (h1 : h.id.length = 32) (h2 : ∀ x ∈ links, x.length = 32)
    (h3 : updateInterlinks W h links = .ok r) : ∀ x ∈ r, x.length = 32 := by
  unfold updateInterlinks at h3
  split at h3
  · injection h3 with h3; subst h3; simpa using h1
  · split at h3
    · cases h3
    · next g l =>
      obtain ⟨lv, h4, h5⟩ := Outcome.bind_eq_ok.1 h3
      split at h5
      · cases h5
      · split at h5
        · split at h5
          · injection h5 with h5; subst h5
            intro x hx
            rcases List.mem_cons.1 hx with rfl | hx
            · exact h2 _ (by simp)
            · rcases List.mem_append.1 hx with hx | hx
              · exact h2 x (List.mem_of_mem_take (List.mem_of_mem_drop hx))
              · rw [(List.mem_replicate.1 hx).2]; exact h1
          · injection h5 with h5; subst h5
            intro x hx
            rcases List.mem_cons.1 hx with rfl | hx
            · exact h2 _ (by simp)
            · rw [(List.mem_replicate.1 hx).2]; exact h1
        · injection h5 with h5; subst h5; exact h2

theorem nextHeight_ok (m : Mode) (h h' : BitVec 32) (e : nextHeight m h = .ok h') :
    h' = h + 1 ∧ (m = .debug → h.toNat + 1 < 2 ^ 32) := by
  unfold nextHeight at e
  split at e
  · next hh => injection e with e; exact ⟨e.symm, fun _ => hh⟩
  · split at e
    · cases e
    · injection e with e; exact ⟨e.symm, by intro hm; cases hm⟩

/-- The first block. -/
theorem first_inv (E : Env G) (hl : LevelsNonneg E.lvl) (r : Rand) (b : Block G) (h : nextBlock E none 1 r = .ok b) : Inv E 0 b [] := by
  obtain ⟨h1, h2, h3, _, ⟨ph, h5, h6, h7⟩, _, _, _, _, h8, h9, d, h10, h11, h12⟩ :=
    proveBlock_header E none (by intro p hp; cases hp) 0 [] r b h
  injection h5 with h5
  subst h5
  exact ⟨by rw [h7]; rfl, h9, maxLevel_v1 E hl _ h3 h8 d h10 h11 h12, by rw [h1]; rfl, by simp, fun _ => ⟨h1, rfl⟩, fun h => absurd rfl h⟩

/-- The block after a block. -/
theorem next_inv (E : Env G) (hl : LevelsNonneg E.lvl) (n : Nat) (b : Block G) (links : List Bytes) (hi : Inv E n b links)
    (hr : E.mode = .debug ∨ (n + 2 < 2 ^ 32 ∧ (n ≠ 0 → levelOf E.pow b.header ≤ 254))) (r : Rand) (nb : Block G)
    (h : nextBlock E (some b) 1 r = .ok nb) :
    ∃ links', updateInterlinks E.pow b.header links = .ok links' ∧ Inv E (n + 1) nb links' ∧ nb.header.parentId = b.header.id := by
  unfold nextBlock at h
  obtain ⟨ls, h1, h⟩ := Outcome.bind_eq_ok.1 h
  obtain ⟨ext, h2, h⟩ := Outcome.bind_eq_ok.1 h
  obtain ⟨l, hl1, hl2⟩ := hi.level
  have hh1 : b.header.height = 1 ↔ n = 0 := by
    rw [← BitVec.toNat_inj, hi.height, show (1 : BitVec 32).toNat = 1 from rfl]; omega
  -- the update succeeds
  have hu : ∃ links', updateInterlinks E.pow b.header links = .ok links' ∧ links' ≠ [] ∧ (E.mode = .debug ∨ links'.length ≤ 255) := by
    by_cases hn : n = 0
    · unfold updateInterlinks
      rw [if_pos (hh1.2 hn)]
      exact ⟨_, rfl, by simp, .inr (by simp)⟩
    · obtain ⟨hr1, hr2, hr3⟩ := hi.rest hn
      have hlv : l.toInt = (l.toInt.toNat : Nat) := by omega
      obtain ⟨q, u1, u2, u3, u4⟩ := update_spec E.pow b.header links (fun e => hn (hh1.1 e)) hr1 l hl1 _ hlv
      refine ⟨q, u1, ?_, ?_⟩
      · rintro rfl
        simp at u3
        have := List.length_pos_iff.2 hr1
        omega
      · rcases hr3 with hd | hd
        · exact .inl hd
        · rcases hr with hd' | ⟨_, hlev⟩
          · exact .inl hd'
          · right
            have := hlev hn
            unfold levelOf at this
            rw [hl1] at this
            dsimp only at this
            rw [u3]; omega
  obtain ⟨links', hu1, hu2, hu3⟩ := hu
  have e1 : ls = links' := by
    unfold nextLinks at h1
    dsimp only at h1
    rw [hi.unpack] at h1
    dsimp only at h1
    rw [hu1] at h1
    injection h1 with h1
    exact h1.symm
  subst e1
  rw [if_neg hu2] at h2
  have h32 := update_ids E.pow b.header links _ hi.id hi.links32 hu1
  have hun : unpackInterlinks ext = .ok ls := by
    by_cases hd : E.mode = .debug
    · rw [hd] at h2
      exact (C31_roundtrip ls h32 ext h2).1
    · have hlen : ls.length ≤ 255 := by
        rcases hu3 with h | h
        · exact absurd h hd
        · exact h
      obtain ⟨fs, p1, p2⟩ := C31_pack_partial E.mode ls hu2 h32 hlen
      rw [h2] at p1
      injection p1 with p1
      rw [p1]; exact p2
  obtain ⟨g1, g2, g3, _, ⟨ph, g5, g6, g7⟩, _, _, _, _, g8, g9, d, g10, g11, g12⟩ :=
    proveBlock_header E (some b.header) (by intro p hp; injection hp with hp; subst hp; exact hi.id) 0 ext r nb h
  obtain ⟨hh, g13, g14⟩ := Outcome.bind_eq_ok.1 (show (nextHeight E.mode b.header.height >>= _) = _ from g5)
  injection g14 with g14
  subst g14
  obtain ⟨g15, g16⟩ := nextHeight_ok _ _ _ g13
  have hlt : b.header.height.toNat + 1 < 2 ^ 32 := by
    rcases hr with hd | ⟨hd, _⟩
    · exact g16 hd
    · rw [hi.height]; omega
  refine ⟨ls, hu1, ⟨?_, g9, maxLevel_v1 E hl _ g3 g8 d g10 g11 g12, by rw [g1]; exact hun, h32, fun h => absurd h (by omega),
    fun _ => ⟨hu2, by rw [g1]; exact h2, hu3⟩⟩, g6⟩
  rw [g7]
  show hh.toNat = _
  rw [g15, BitVec.toNat_add, show (1 : BitVec 32).toNat = 1 from rfl, Nat.mod_eq_of_lt hlt, hi.height]

/-- A block of the chain as a header with proved interlinks. -/
theorem toPoPow_ok (E : Env G) (n : Nat) (b : Block G) (links : List Bytes) (hi : Inv E n b links) :
    ∃ p, b.toPoPow E.H = .ok p ∧ p.header = b.header ∧ p.interlinks = links ∧ p.checkInterlinks E.mode E.H = .ok true := by
  unfold Block.toPoPow
  by_cases hn : n = 0
  · obtain ⟨h1, rfl⟩ := hi.first hn
    rw [h1]
    exact ⟨_, rfl, rfl, rfl, rfl⟩
  · obtain ⟨h1, h2, _⟩ := hi.rest hn
    obtain ⟨p, h3, h4⟩ := C58_checked_partial E.mode E.H b.header links h1 b.extension h2
    rw [h3, hi.unpack]
    exact ⟨_, rfl, rfl, rfl, h4⟩

/-- `FullChain` for a chain whose first block has number `n`. -/
structure Seg (E : Env G) (n : Nat) (c : List (PoPowHeader G)) : Prop where
  heights : ∀ (i : Nat) p, c[i]? = some p → p.header.height.toNat = n + i + 1
  parents : ∀ (i : Nat) p q, c[i]? = some p → c[i + 1]? = some q → q.header.parentId = p.header.id
  levels : ∀ p ∈ c, ∃ l, E.pow.maxLevel p.header = .ok l ∧ l.toInt = levelOf E.pow p.header
  links : ∀ (i : Nat) p q, c[i]? = some p → c[i + 1]? = some q → updateInterlinks E.pow p.header p.interlinks = .ok q.interlinks
  checked : ∀ p ∈ c, p.checkInterlinks E.mode E.H = .ok true

theorem items_seg (E : Env G) (hl : LevelsNonneg E.lvl) : ∀ (rs : List Rand) (n : Nat) (b : Block G) (links : List Bytes) (bs : List (Block G)),
    Inv E n b links → itemsFrom E b rs = .ok bs → InRange E (n + rs.length + 1) bs →
    ∃ c, toPoPows E.H bs = .ok c ∧ c.length = rs.length ∧ bs.map Block.header = c.map PoPowHeader.header ∧ Seg E n c ∧
      (∀ p, c[0]? = some p → p.header = b.header ∧ p.interlinks = links) := by
  intro rs
  induction rs with
  | nil =>
    intro n b links bs hi h _
    injection h with h
    subst h
    exact ⟨[], rfl, rfl, rfl, ⟨by simp, by simp, by simp, by simp, by simp⟩, by simp⟩
  | cons r rs ih =>
    intro n b links bs hi h hr
    obtain ⟨nb, h1, h⟩ := Outcome.bind_eq_ok.1 h
    obtain ⟨l, h2, h⟩ := Outcome.bind_eq_ok.1 h
    injection h with h
    subst h
    have hh1 : b.header.height = 1 ↔ n = 0 := by
      rw [← BitVec.toNat_inj, hi.height, show (1 : BitVec 32).toNat = 1 from rfl]; omega
    obtain ⟨links', u1, u2, u3⟩ := next_inv E hl n b links hi (by
      rcases hr with hd | ⟨hd, hb⟩
      · exact .inl hd
      · simp only [List.length_cons] at hd
        exact .inr ⟨by omega, fun hn => hb b (by simp) (fun e => hn (hh1.1 e))⟩) r nb h1
    obtain ⟨c, c1, c2, c5, c3, c4⟩ := ih (n + 1) nb links' l u2 h2 (by
      rcases hr with hd | ⟨hd, hb⟩
      · exact .inl hd
      · simp only [List.length_cons] at hd
        exact .inr ⟨by omega, fun x hx => hb x (by simp [hx])⟩)
    obtain ⟨p, p1, p2, p3, p4⟩ := toPoPow_ok E n b links hi
    refine ⟨p :: c, ?_, by simp [c2], by simp [p2, c5], ⟨?_, ?_, ?_, ?_, ?_⟩, ?_⟩
    · unfold toPoPows
      rw [p1]
      show (toPoPows E.H l >>= _) = _
      rw [c1]; rfl
    · intro i q hq
      cases i with
      | zero => injection hq with hq; subst hq; rw [p2, hi.height]
      | succ i => rw [c3.heights i q hq]; omega
    · intro i q q' hq hq'
      cases i with
      | zero =>
        injection hq with hq; subst hq
        rw [(c4 q' hq').1, u3, p2]
      | succ i => exact c3.parents i q q' hq hq'
    · intro q hq
      rcases List.mem_cons.1 hq with rfl | hq
      · obtain ⟨lv, v1, v2⟩ := hi.level
        rw [p2]
        refine ⟨lv, v1, ?_⟩
        unfold levelOf
        rw [v1]
        show _ = ((lv.toInt.toNat : Nat) : Int)
        omega
      · exact c3.levels q hq
    · intro i q q' hq hq'
      cases i with
      | zero =>
        injection hq with hq; subst hq
        rw [(c4 q' hq').2, p2, p3, u1]
      | succ i => exact c3.links i q q' hq hq'
    · intro q hq
      rcases List.mem_cons.1 hq with rfl | hq
      · exact p4
      · exact c3.checked q hq
    · intro q hq
      injection hq with hq; subst hq
      exact ⟨p2, p3⟩

/-! ## The equation -/

theorem hashTimes_succ (H : HashFn) : ∀ (n : Nat) (b : Bytes), H (hashTimes H n b) = hashTimes H (n + 1) b := by
  intro n
  induction n with
  | zero => intro b; rfl
  | succ n ih => intro b; exact ih (H b)

theorem numericLoop_spec (H : HashFn) (q : Nat) (input : Bytes) (y : Nat) : ∀ (fuel j : Nat),
    (∀ k, k < j → 2 ^ 256 / q * q ≤ beNat (hashTimes H (k + 1) input)) →
    numericLoop H (2 ^ 256 / q * q) q fuel (hashTimes H (j + 1) input) = .ok y → NumericHash H q input y := by
  intro fuel
  induction fuel with
  | zero => intro j _ h; cases h
  | succ fuel ih =>
    intro j hj h
    unfold numericLoop at h
    split at h
    · next hlt =>
      injection h with h
      exact ⟨j, hj, hlt, h.symm⟩
    · next hge =>
      rw [hashTimes_succ] at h
      refine ih (j + 1) (fun k hk => ?_) h
      rcases Nat.lt_succ_iff_lt_or_eq.1 hk with hk | rfl
      · exact hj k hk
      · exact Nat.not_lt.1 hge

theorem sumElements_spec (H : HashFn) (fuel : Nat) (msg pk w hb : Bytes) : ∀ (idx : List Nat) (s : Nat),
    sumElements H fuel 1 msg pk w hb idx = .ok s →
    ∃ es, List.Forall₂ (fun i e => NumericHash H groupOrder (natBe 4 i ++ PowScheme.calcBigM ++ pk ++ msg ++ w) e) idx es ∧ es.sum = s := by
  intro idx
  induction idx with
  | nil => intro s h; injection h with h; exact ⟨[], .nil, by simpa using h⟩
  | cons i l ih =>
    intro s h
    obtain ⟨e, h1, h⟩ := Outcome.bind_eq_ok.1 h
    obtain ⟨t, h2, h⟩ := Outcome.bind_eq_ok.1 h
    injection h with h
    obtain ⟨es, h3, h4⟩ := ih t h2
    refine ⟨e :: es, .cons ?_ h3, by simp [h4, h]⟩
    unfold generateElement at h1
    rw [if_pos rfl, show curveOrder.toNat = groupOrder from by rw [order_nat]; rfl] at h1
    exact numericLoop_spec H groupOrder _ e fuel 0 (fun k hk => absurd hk (Nat.not_lt_zero k)) h1

theorem genLoop_length (ext : Bytes) (N : Nat) : ∀ (l r : List Nat), PowScheme.genLoop ext N l = .ok r → r.length = l.length := by
  intro l
  induction l with
  | nil => intro r h; injection h with h; subst h; rfl
  | cons i l ih =>
    intro r h
    obtain ⟨x, h1, h⟩ := Outcome.bind_eq_ok.1 h
    obtain ⟨xs, h2, h⟩ := Outcome.bind_eq_ok.1 h
    injection h with h
    subst h
    simp [ih xs h2]

theorem pow_of_mod {K : Type} [CommGroup K] (g : K) (q : Nat) (hg : g ^ q = 1) (x s sk : Nat) (d : Int) (q' : Int) (hq : q' = (q : Nat))
    (hd : ((x : Int) * s - sk).emod q' = d) (h0 : 0 ≤ d) : (g ^ x) ^ s = g ^ d.toNat * g ^ sk := by
  have hz : g ^ (q' : Int) = 1 := by rw [hq, zpow_natCast, hg]
  have hk : (x : Int) * s = d + sk + q' * (((x : Int) * s - sk) / q') := by
    have := Int.emod_add_mul_ediv ((x : Int) * s - sk) q'
    have hd' : ((x : Int) * s - sk) % q' = d := hd
    rw [hd'] at this
    omega
  have e : g ^ ((x : Int) * s) = g ^ d * g ^ (sk : Int) := by
    rw [hk, zpow_add, zpow_add, zpow_mul, hz, one_zpow, mul_one]
  rw [← pow_mul, ← zpow_natCast g (x * s), ← zpow_natCast g d.toNat, ← zpow_natCast g sk, Int.toNat_of_nonneg h0]
  push_cast
  exact e

/-- The solution of a generated block satisfies the equation of version 1. -/
theorem proveBlock_equation {K : Type} [CommGroup K] [DecidableEq K] (E : Env K) (g : K) (hg : g ^ groupOrder = 1)
    (hpub : ∀ x, E.pub x = g ^ x) (parent : Option (Header K)) (ts : BitVec 64) (ext : List ExtField) (r : Rand) (b : Block K)
    (h : proveBlock E parent 1 ts ext r = .ok b) : Autolykos1 E.H E.pc g b.header := by
  obtain ⟨txRoot, ph, t, d, s, h1, h2, h3, h4, h5, sol, hsol, h6, h7⟩ := proveBlock_ok E parent ts ext r b h
  have hb := distance_bounds E _ _ _ _ _ _ h4
  unfold distance at h4
  obtain ⟨seed, s1, h4⟩ := Outcome.bind_eq_ok.1 h4
  obtain ⟨idx, s2, h4⟩ := Outcome.bind_eq_ok.1 h4
  obtain ⟨f, s3, h8⟩ := Outcome.bind_eq_ok.1 h4
  injection h8 with h8
  rw [if_pos rfl] at h8
  injection s1 with s1
  subst s1
  obtain ⟨es, s4, s5⟩ := sumElements_spec _ _ _ _ _ _ _ _ s3
  subst hsol
  rw [h7]
  refine ⟨E.pub r.x, d.toNat, idx, es, rfl, ?_, ?_, s2, ?_, s4, ?_⟩
  · show some d = some ((d.toNat : Nat) : Int)
    rw [Int.toNat_of_nonneg hb.1]
  · have := order_nat; omega
  · rw [genLoop_length _ _ _ _ s2]; simp [PowScheme.default]
  · rw [s5]
    show E.pub r.x ^ f = g ^ d.toNat * E.pub E.sk
    rw [hpub, hpub]
    exact pow_of_mod g groupOrder hg r.x f E.sk d curveOrder order_nat h8 hb.1

/-- Every block given out is the first one or made by `prove_block`. -/
theorem items_made (E : Env G) : ∀ (rs : List Rand) (b : Block G) (bs : List (Block G)), b.header.id.length = 32 → itemsFrom E b rs = .ok bs →
    bs.length = rs.length ∧ (∀ x, bs[0]? = some x → x = b) ∧
      ∀ x ∈ bs, x = b ∨ ∃ parent ext r, (∀ p : Header G, parent = some p → p.id.length = 32) ∧ proveBlock E parent 1 0 ext r = .ok x := by
  intro rs
  induction rs with
  | nil => intro b bs _ h; injection h with h; subst h; simp
  | cons r rs ih =>
    intro b bs hb h
    obtain ⟨nb, h1, h⟩ := Outcome.bind_eq_ok.1 h
    obtain ⟨l, h2, h⟩ := Outcome.bind_eq_ok.1 h
    injection h with h
    subst h
    unfold nextBlock at h1
    obtain ⟨ls, _, h1⟩ := Outcome.bind_eq_ok.1 h1
    obtain ⟨ext, _, h1⟩ := Outcome.bind_eq_ok.1 h1
    have hp : ∀ p : Header G, Option.map Block.header (some b) = some p → p.id.length = 32 := by
      intro p hp; injection hp with hp; subst hp; exact hb
    obtain ⟨_, _, _, _, _, _, _, _, _, _, h9, _⟩ := proveBlock_header E _ hp 0 ext r nb h1
    obtain ⟨i1, i2, i3⟩ := ih nb l h9 h2
    refine ⟨by simp [i1], by simp, ?_⟩
    intro x hx
    rcases List.mem_cons.1 hx with rfl | hx
    · exact .inl rfl
    · rcases i3 x hx with rfl | h
      · exact .inr ⟨_, _, _, hp, h1⟩
      · exact .inr h

theorem stream_made (E : Env G) (r0 : Rand) (rs : List Rand) (bs : List (Block G)) (h : blockStream E none r0 rs = .ok bs) :
    bs.length = rs.length ∧
      ∀ x ∈ bs, ∃ parent ext r, (∀ p : Header G, parent = some p → p.id.length = 32) ∧ proveBlock E parent 1 0 ext r = .ok x := by
  unfold blockStream at h
  obtain ⟨b, h1, h2⟩ := Outcome.bind_eq_ok.1 h
  have h1' : proveBlock E none 1 0 [] r0 = .ok b := h1
  obtain ⟨_, _, _, _, _, _, _, _, _, _, h9, _⟩ := proveBlock_header E none (by intro p hp; cases hp) 0 [] r0 b h1'
  obtain ⟨i1, _, i3⟩ := items_made E rs b bs h9 h2
  refine ⟨i1, fun x hx => ?_⟩
  rcases i3 x hx with rfl | h
  · exact ⟨none, [], r0, (fun p hp => by cases hp), h1'⟩
  · exact h

/-! ## Later versions -/

theorem search_found (target : Int) (d : Bytes → Outcome Int) : ∀ (n j : Nat) (nonce : Bytes) (x : Int),
    search target d n j = .ok (some (nonce, x)) → d nonce = .ok x ∧ x ≤ target ∧ ∃ i, nonce = nonceBytes i := by
  intro n
  induction n with
  | zero => intro j nonce x h; injection h with h; cases h
  | succ n ih =>
    intro j nonce x h
    obtain ⟨y, h1, h2⟩ := Outcome.bind_eq_ok.1 (show (d (nonceBytes j) >>= _) = _ from h)
    split at h2
    · next hle =>
      injection h2 with h2
      injection h2 with h2
      injection h2 with h2 h3
      subst h2; subst h3
      exact ⟨h1, hle, j, rfl⟩
    · exact ih _ _ _ h2

theorem sumElements_later (H : HashFn) (fuel : Nat) (v : Byte) (hv : v ≠ 1) (msg pk w hb : Bytes) : ∀ (idx : List Nat) (acc : Nat),
    ∃ s, sumElements H fuel v msg pk w hb idx = .ok s ∧
      idx.foldl (fun acc i => acc + beNat ((H (natBe 4 i ++ hb ++ PowScheme.calcBigM)).drop 1)) acc = acc + s ∧ s ≤ idx.length * 2 ^ 248 := by
  intro idx
  induction idx with
  | nil => intro acc; exact ⟨0, rfl, rfl, Nat.zero_le _⟩
  | cons i l ih =>
    intro acc
    obtain ⟨s, h1, h2, h3⟩ := ih (acc + beNat ((H (natBe 4 i ++ hb ++ PowScheme.calcBigM)).drop 1))
    refine ⟨beNat ((H (natBe 4 i ++ hb ++ PowScheme.calcBigM)).drop 1) + s, ?_, ?_, ?_⟩
    · unfold sumElements generateElement
      rw [if_neg hv]
      show (sumElements H fuel v msg pk w hb l >>= _) = _
      rw [h1]; rfl
    · rw [List.foldl_cons, h2]; omega
    · have hb := beNat_lt ((H (natBe 4 i ++ hb ++ PowScheme.calcBigM)).drop 1)
      rw [List.length_drop, H.len] at hb
      have e : (256 : Nat) ^ (32 - 1) = 2 ^ 248 := by decide
      rw [e] at hb
      rw [List.length_cons, Nat.add_mul, Nat.one_mul]
      omega

theorem signedLen_32 (f : Nat) (h1 : 2 ^ 247 ≤ f) (h2 : f < 2 ^ 255) : signedLen (f : Int) = 32 := by
  have hle : signedLen (f : Int) ≤ 32 := signedLen_le (by decide) (by
      have : (0 : Int) ≤ f := Int.natCast_nonneg f
      have h : -((2 ^ (8 * 32 - 1) : Nat) : Int) ≤ 0 := by decide
      omega) (by
      have : (f : Int) < ((2 ^ 255 : Nat) : Int) := Int.ofNat_lt.2 h2
      exact this)
  obtain ⟨_, hb⟩ := signedLen_bounds (f : Int)
  have h3 : f < 2 ^ (8 * signedLen (f : Int) - 1) := by exact_mod_cast hb
  have h4 : 247 < 8 * signedLen (f : Int) - 1 := (Nat.pow_lt_pow_iff_right (by decide : 1 < 2)).1 (Nat.lt_of_le_of_lt h1 h3)
  omega

/-- What a later version writes, if a solution is found. -/
theorem proveBlock_later (E : Env G) (v : Byte) (hv : v ≠ 1) (parent : Option (Header G)) (ts : BitVec 64) (ext : List ExtField) (r : Rand)
    (b : Block G) (h : proveBlock E parent v ts ext r = .ok b) (hf : b.header.solution.nonce ≠ []) :
    ∃ ph d f s, parentOf E.mode parent = .ok ph ∧ b.extension = ext ∧ b.header.version = v ∧ b.header.parentId = ph.1 ∧ b.header.height = ph.2 ∧
      b.header.solution.onetimePk = some (E.pub r.x) ∧ b.header.solution.distance = some d ∧
      d ≤ curveOrder.tdiv (decodeCompact b.header.nBits) ∧ d = beNat (E.H (toSignedBe (f : Nat))) ∧
      b.header.ser E.pc = .ok s ∧ b.header.id = E.H s ∧
      f ≤ 2 ^ 253 ∧ PowScheme.default.powHit E.H b.header = .ok ((beNat (E.H (natBe 32 f)) : Nat) : Int) ∧
      transactionsRoot E.H E.txs v = .ok b.header.transactionRoot ∧
      ∃ t, extensionTree E.H ext = .ok t ∧ b.header.extensionRoot = t.rootHashSpecial E.H := by
  unfold proveBlock at h
  obtain ⟨txRoot, h1, h⟩ := Outcome.bind_eq_ok.1 h
  obtain ⟨ph, h2, h⟩ := Outcome.bind_eq_ok.1 h
  obtain ⟨t, h3, h⟩ := Outcome.bind_eq_ok.1 h
  obtain ⟨fo, h4, h⟩ := Outcome.bind_eq_ok.1 h
  obtain ⟨h', h5, h⟩ := Outcome.bind_eq_ok.1 h
  injection h with h
  subst h
  cases fo with
  | none =>
    injection h5 with h5
    subst h5
    exact absurd rfl hf
  | some y =>
    obtain ⟨nonce, d⟩ := y
    obtain ⟨s1, s2, _⟩ := search_found _ _ _ _ _ _ h4
    unfold sealed at h5
    dsimp only at h5
    split at h5
    · next s hs =>
      injection h5 with h5
      subst h5
      unfold distance at s1
      obtain ⟨seed, k1, s1⟩ := Outcome.bind_eq_ok.1 s1
      obtain ⟨idx, k2, s1⟩ := Outcome.bind_eq_ok.1 s1
      obtain ⟨f, k3, hd⟩ := Outcome.bind_eq_ok.1 s1
      injection hd with hd
      rw [if_neg hv] at hd
      obtain ⟨f', e1, e2, e3⟩ := sumElements_later E.H E.fuel v hv _ _ _ _ idx 0
      rw [k3] at e1
      injection e1 with e1
      subst e1
      have hlen : idx.length = 32 := by rw [genLoop_length _ _ _ _ k2]; simp [PowScheme.default]
      have hf253 : f ≤ 2 ^ 253 := by
        rw [hlen] at e3
        exact Nat.le_trans e3 (by decide)
      refine ⟨ph, d, f, _, h2, rfl, rfl, rfl, rfl, rfl, rfl, s2, hd.symm, ?_, rfl, hf253, ?_, h1, t, h3, rfl⟩
      · unfold Header.ser
        dsimp only
        rw [hs]
        rfl
      · unfold seedOf at k1
        rw [if_neg hv] at k1
        split at k1
        · next sd hsd =>
          injection k1 with k1
          subst k1
          unfold PowScheme.powHit
          rw [if_neg (show ¬ (draft E v ts ph (E.H r.adProofs) txRoot (t.rootHashSpecial E.H)).version = 1 from hv)]
          dsimp only
          refine Outcome.bind_eq_ok.2 ⟨sd, hsd, ?_⟩
          refine Outcome.bind_eq_ok.2 ⟨idx, k2, ?_⟩
          show (match asUnsigned 32 (PowScheme.sumHashes E.H (natBe 4 ph.2.toNat) idx : Int) with
            | .ok a => Outcome.ok ((beNat (E.H a) : Nat) : Int)
            | _ => .panic) = _
          have hsum : PowScheme.sumHashes E.H (natBe 4 ph.2.toNat) idx = f := by
            unfold PowScheme.sumHashes
            rw [show (draft E v ts ph (E.H r.adProofs) txRoot (t.rootHashSpecial E.H)).height = ph.2 from rfl] at e2
            rw [e2, Nat.zero_add]
          rw [hsum, asUnsigned_ok 32 f (Nat.lt_of_le_of_lt hf253 (by decide))]
        · cases k1
    · cases h5

theorem natBe_signed (f : Nat) (h1 : 2 ^ 247 ≤ f) (h2 : f < 2 ^ 255) : toSignedBe (f : Int) = natBe 32 f := by
  rw [(toSignedBe_nat f).1, signedLen_32 f h1 h2]

end Verif.ChainGen
