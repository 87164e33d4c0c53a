import Verif.Proofs.ChainGen
import Verif.Props.Header
import Verif.Props.Nipopow
import Mathlib.Data.ZMod.Defs

/-!
# C105: generated chains

`block_stream` of `ergo-chain-generation` makes the chains on which users test their light clients.
-/

set_option linter.unusedSimpArgs false
set_option linter.unusedVariables false

namespace Verif
open Spec ChainGen Merkle
variable {G : Type} [DecidableEq G]

/-- A hash for examples: the first 32 bytes (padded), each increased by 85; not in the code. -/
def shiftHash : HashFn where
  run x := ((x ++ List.replicate 32 0#8).take 32).map (· + 85)
  len x := by simp

/-- A codec of points for examples. -/
def cgCodec : PointCodec (Fin 3) where
  one := 0
  sec1 g := BitVec.ofNat 8 (g.val + 1) :: List.replicate 32 7#8
  unsec1 b := if b.head? = some 2#8 then some 1 else some 2
  sec1_length g _ := by simp
  sec1_head g _ := by revert g; decide
  unsec1_sec1 g h := by revert g; decide

/-- A small environment: levels by the parity of the hit. -/
def cgEnv : Env (Fin 3) :=
  { mode := .debug, H := shiftHash, lvl := fun t d => BitVec.ofInt 32 (d % 3), pc := cgCodec,
    pub := fun x => if x % 2 = 0 then 2 else 1, sk := 12345, dummy := 1, txs := [⟨[1, 2, 3], [[9]]⟩, ⟨[4, 5], []⟩], fuel := 3 }

def cgRand (n : Nat) : Rand := { adProofs := [BitVec.ofNat 8 n], x := 1000 + n }

/-- What the examples start from: the small environment makes five blocks, with levels 0 to 2. -/
theorem cg_runs : (match blockStream cgEnv none (cgRand 0) [cgRand 1, cgRand 2, cgRand 3, cgRand 4, cgRand 5] with
    | .ok bs => bs.map fun (b : ChainGen.Block (Fin 3)) => (b.header.height.toNat, b.header.solution.distance.map (· % 3),
        (match unpackInterlinks b.extension with
          | .ok l => l.length
          | _ => 99))
    | _ => []) = [(1, some 2, 0), (2, some 0, 1), (3, some 2, 1), (4, some 0, 3), (5, some 0, 3)] := by
  decide +kernel

theorem cg_stream : ∃ bs, blockStream cgEnv none (cgRand 0) [cgRand 1, cgRand 2, cgRand 3, cgRand 4, cgRand 5] = .ok bs := by
  have h := cg_runs
  split at h
  · next bs e => exact ⟨bs, e⟩
  · cases h

theorem cg_levels : LevelsNonneg cgEnv.lvl := by
  intro t d _ _
  show 0 ≤ (BitVec.ofInt 32 (d % 3)).toInt
  have h1 := Int.emod_nonneg d (show (3 : Int) ≠ 0 by decide)
  have h2 := Int.emod_lt_of_pos d (show (0 : Int) < 3 by decide)
  rw [BitVec.toInt_ofInt]
  have : d % 3 = 0 ∨ d % 3 = 1 ∨ d % 3 = 2 := by omega
  rcases this with h | h | h <;> rw [h] <;> decide

/-- C105: the blocks that a new stream gives out are a chain as a full node has it: heights 1, 2, 3, …, every block names the one
before as its parent, its interlinks are those that result from the one before, and the proofs of interlinks pass.  (Missing: a
hash that makes an index zero makes the generator panic, see `C105_panic_violates`.) -/
theorem C105_chain_partial (E : Env G) (hl : LevelsNonneg E.lvl) (r0 : Rand) (rs : List Rand) (bs : List (Block G))
    (h : blockStream E none r0 rs = .ok bs) (hr : InRange E (rs.length + 1) bs) :
    ∃ c, toPoPows E.H bs = .ok c ∧ c.length = rs.length ∧ c.map PoPowHeader.header = bs.map Block.header ∧
      FullChain E.mode E.pow (fun p => levelOf E.pow p.header) c ∧ ∀ p, c[0]? = some p → p.interlinks = [] := by
  unfold blockStream at h
  obtain ⟨b, h1, h2⟩ := Outcome.bind_eq_ok.1 h
  obtain ⟨c, c1, c2, c3, c4, c5⟩ := items_seg E hl rs 0 b [] bs (first_inv E hl r0 b h1) h2 (by rw [Nat.zero_add]; exact hr)
  exact ⟨c, c1, c2, c3.symm, ⟨fun i p hp => by rw [c4.heights i p hp, Nat.zero_add], c4.parents, c4.levels, c4.links, c4.checked⟩,
    fun p hp => (c5 p hp).2⟩

/-- Five blocks. -/
example : ∃ bs c, blockStream cgEnv none (cgRand 0) [cgRand 1, cgRand 2, cgRand 3, cgRand 4, cgRand 5] = .ok bs ∧
    toPoPows cgEnv.H bs = .ok c ∧ c.length = 5 ∧ FullChain .debug cgEnv.pow (fun p => levelOf cgEnv.pow p.header) c := by
  obtain ⟨bs, h⟩ := cg_stream
  obtain ⟨c, c1, c2, _, c3, _⟩ := C105_chain_partial cgEnv cg_levels _ _ bs h (.inl rfl)
  exact ⟨bs, c, h, c1, c2, c3⟩

/-- C105: so a NiPoPoW proof can be made from such a chain, and it is valid. -/
theorem C105_provable (E : Env G) (hl : LevelsNonneg E.lvl) (r0 : Rand) (rs : List Rand) (bs : List (Block G))
    (h : blockStream E none r0 rs = .ok bs) (hr : InRange E (rs.length + 1) bs) (k m : BitVec 32) (hk : 1 ≤ k.toNat) (hm : 1 ≤ m.toNat)
    (hs : k.toNat + m.toNat < 2 ^ 32) (hlen : k.toNat + m.toNat ≤ rs.length) (h2 : k.toNat + 2 ≤ rs.length) :
    ∃ c p, toPoPows E.H bs = .ok c ∧ prove E.mode E.pow c k m = .ok p ∧ p.isValid E.mode E.H = .ok true ∧
      p.chain.head? = bs.head?.map Block.header ∧
      p.suffixHead.header :: p.suffixTail = (bs.drop (rs.length - k.toNat)).map Block.header := by
  obtain ⟨c, c1, c2, c3, c4, _⟩ := C105_chain_partial E hl r0 rs bs h hr
  obtain ⟨p, p1, _, _, p4, p5, p6, _⟩ := C56_prove_partial c4 k m hk hm hs (by omega) (by omega) _ rfl
  refine ⟨c, p, c1, p1, p4, ?_, ?_⟩
  · rw [p5, ← List.head?_map, ← List.head?_map, c3]
  · rw [p6, c2, List.map_drop, List.map_drop, c3]

/-- The five blocks, `k = 1` and `m = 2`. -/
example : ∃ bs c p, blockStream cgEnv none (cgRand 0) [cgRand 1, cgRand 2, cgRand 3, cgRand 4, cgRand 5] = .ok bs ∧
    toPoPows cgEnv.H bs = .ok c ∧ prove .debug cgEnv.pow c 1 2 = .ok p ∧ p.isValid .debug cgEnv.H = .ok true := by
  obtain ⟨bs, h⟩ := cg_stream
  obtain ⟨c, p, h1, h2, h3, _⟩ := C105_provable cgEnv cg_levels _ _ bs h (.inl rfl) 1 2 (by decide) (by decide) (by decide) (by decide) (by decide)
  exact ⟨bs, c, p, h, h1, h2, h3⟩

/-- C105: a stream started from the last block of such a chain continues the chain. -/
theorem C105_continued (E : Env G) (hl : LevelsNonneg E.lvl) (c : List (PoPowHeader G)) (p : PoPowHeader G)
    (hc : FullChain E.mode E.pow (fun x => levelOf E.pow x.header) (c ++ [p])) (hid : p.header.id.length = 32)
    (h32 : ∀ x ∈ p.interlinks, x.length = 32) (fs : List ExtField)
    (hfs : (c = [] ∧ p.interlinks = [] ∧ fs = []) ∨ (c ≠ [] ∧ p.interlinks ≠ [] ∧ packInterlinks E.mode p.interlinks = .ok fs))
    (hlen : E.mode = .debug ∨ p.interlinks.length ≤ 255) (r0 : Rand) (rs : List Rand) (bs : List (Block G))
    (h : blockStream E (some { header := p.header, extension := fs }) r0 rs = .ok bs) (hr : InRange E (c.length + rs.length + 1) bs) :
    ∃ d, toPoPows E.H bs = .ok d ∧ d.length = rs.length ∧
      FullChain E.mode E.pow (fun x => levelOf E.pow x.header) (c ++ d) := by
  have hpc : (c ++ [p])[c.length]? = some p := by simp
  obtain ⟨l, hl1, hl2⟩ := hc.levels p (by simp)
  have hi : Inv E c.length { header := p.header, extension := fs } p.interlinks := by
    refine ⟨hc.heights _ p hpc, hid, ⟨l, hl1, by omega⟩, ?_, h32, ?_, ?_⟩
    · rcases hfs with ⟨_, h1, h2⟩ | ⟨_, h1, h2⟩
      · dsimp only; rw [h1, h2]; rfl
      · rcases hlen with hd | hd
        · rw [hd] at h2; exact (C31_roundtrip _ h32 fs h2).1
        · obtain ⟨fs', f1, f2⟩ := C31_pack_partial E.mode _ h1 h32 hd
          rw [h2] at f1
          injection f1 with f1
          dsimp only; rw [f1]; exact f2
    · intro hn
      have : c = [] := List.length_eq_zero_iff.1 hn
      rcases hfs with ⟨_, h1, h2⟩ | ⟨h0, _, _⟩
      · exact ⟨h2, h1⟩
      · exact absurd this h0
    · intro hn
      rcases hfs with ⟨h0, _, _⟩ | ⟨_, h1, h2⟩
      · rw [h0] at hn; exact absurd rfl hn
      · exact ⟨h1, h2, hlen⟩
  obtain ⟨d, d1, d2, _, d4, d5⟩ := items_seg E hl rs c.length _ p.interlinks bs hi h hr
  refine ⟨d, d1, d2, ?_⟩
  have low : ∀ i x, i < c.length → (c ++ d)[i]? = some x → (c ++ [p])[i]? = some x := by
    intro i x hi hx
    rw [List.getElem?_append_left hi] at hx ⊢; exact hx
  have high : ∀ i x, c.length ≤ i → (c ++ d)[i]? = some x → d[i - c.length]? = some x := by
    intro i x hi hx
    rwa [List.getElem?_append_right hi] at hx
  refine ⟨?_, ?_, ?_, ?_, ?_⟩
  · intro i x hx
    by_cases hi : i < c.length
    · exact hc.heights i x (low i x hi hx)
    · rw [d4.heights _ x (high i x (by omega) hx)]; omega
  · intro i x y hx hy
    by_cases hi : i + 1 < c.length
    · exact hc.parents i x y (low i x (by omega) hx) (low _ y hi hy)
    · by_cases hi' : i < c.length
      · have hy' := high _ y (by omega) hy
        rw [show i + 1 - c.length = 0 by omega] at hy'
        have e : i + 1 = c.length := by omega
        rw [(d5 y hy').1]
        exact hc.parents i x p (low i x hi' hx) (by rw [e]; exact hpc)
      · have hx' := high _ x (by omega) hx
        have hy' := high _ y (by omega) hy
        rw [show i + 1 - c.length = i - c.length + 1 by omega] at hy'
        exact d4.parents _ x y hx' hy'
  · intro x hx
    rcases List.mem_append.1 hx with hx | hx
    · exact hc.levels x (by simp [hx])
    · exact d4.levels x hx
  · intro i x y hx hy
    by_cases hi : i + 1 < c.length
    · exact hc.links i x y (low i x (by omega) hx) (low _ y hi hy)
    · by_cases hi' : i < c.length
      · have hy' := high _ y (by omega) hy
        rw [show i + 1 - c.length = 0 by omega] at hy'
        have e : i + 1 = c.length := by omega
        rw [(d5 y hy').2]
        exact hc.links i x p (low i x hi' hx) (by rw [e]; exact hpc)
      · have hx' := high _ x (by omega) hx
        have hy' := high _ y (by omega) hy
        rw [show i + 1 - c.length = i - c.length + 1 by omega] at hy'
        exact d4.links _ x y hx' hy'
  · intro x hx
    rcases List.mem_append.1 hx with hx | hx
    · exact hc.checked x (by simp [hx])
    · exact d4.checked x hx

/-- A stream started from the first block of another stream. -/
example : ∃ (p : PoPowHeader (Fin 3)) (bs : List (ChainGen.Block (Fin 3))) (d : List (PoPowHeader (Fin 3))),
    blockStream cgEnv (some { header := p.header, extension := [] }) (cgRand 0) [cgRand 1, cgRand 2, cgRand 3, cgRand 4, cgRand 5] = .ok bs ∧
    toPoPows cgEnv.H bs = .ok d ∧ d.length = 5 ∧ FullChain .debug cgEnv.pow (fun x => levelOf cgEnv.pow x.header) d := by
  obtain ⟨bs, h⟩ := cg_stream
  obtain ⟨b, h1, h2⟩ := Outcome.bind_eq_ok.1 h
  have hi := first_inv cgEnv cg_levels _ b h1
  obtain ⟨p, p1, p2, p3, p4⟩ := toPoPow_ok cgEnv 0 b [] hi
  have hb : ({ header := p.header, extension := [] } : ChainGen.Block (Fin 3)) = b := by
    rw [p2, ← (hi.first rfl).1]
  have hs : blockStream cgEnv (some { header := p.header, extension := [] }) (cgRand 0) [cgRand 1, cgRand 2, cgRand 3, cgRand 4, cgRand 5] = .ok bs := by
    rw [hb]; exact h2
  obtain ⟨l, l1, l2⟩ := hi.level
  have hc : FullChain cgEnv.mode cgEnv.pow (fun x => levelOf cgEnv.pow x.header) ([] ++ [p]) := by
    refine ⟨?_, ?_, ?_, ?_, ?_⟩
    · intro i q hq
      cases i with
      | zero =>
        obtain rfl : p = q := by simpa using hq
        exact (congrArg (fun x : Header (Fin 3) => x.height.toNat) p2).trans hi.height
      | succ i => simp at hq
    · intro i q q' _ hq'; simp at hq'
    · intro q hq
      obtain rfl : q = p := by simpa using hq
      rw [p2]
      refine ⟨l, l1, ?_⟩
      unfold levelOf
      rw [l1]
      show _ = ((l.toInt.toNat : Nat) : Int)
      exact (Int.toNat_of_nonneg l2).symm
    · intro i q q' _ hq'; simp at hq'
    · intro q hq
      obtain rfl : q = p := by simpa using hq
      exact p4
  obtain ⟨d, d1, d2, d3⟩ := C105_continued cgEnv cg_levels [] p hc (by rw [p2]; exact hi.id) (by rw [p3]; simp) []
    (.inl ⟨rfl, p3, rfl⟩) (.inl rfl) _ _ bs hs (.inl rfl)
  exact ⟨p, bs, d, hs, d1, d2, d3⟩

/-- C105: every header is complete: it has a version 1 solution, its id is the hash of its bytes, it is read back from them, and it
commits to the fields of the extension and to the ids of the transactions. -/
theorem C105_header (E : Env G) (r0 : Rand) (rs : List Rand) (bs : List (Block G)) (h : blockStream E none r0 rs = .ok bs)
    (b : Block G) (hb : b ∈ bs) :
    b.header.version = 1 ∧ b.header.timestamp = 0 ∧
      (∃ s, b.header.ser E.pc = .ok s ∧ b.header.id = E.H s ∧ ∀ rest, Header.parse E.H E.pc (s ++ rest) = some (b.header, rest)) ∧
      MerkleRoot E.H (b.extension.map kvToLeaf) b.header.extensionRoot ∧
      MerkleRoot E.H (E.txs.map fun t => E.H t.toSign) b.header.transactionRoot := by
  obtain ⟨_, hm⟩ := stream_made E r0 rs bs h
  obtain ⟨parent, ext, r, hp, hx⟩ := hm b hb
  obtain ⟨g1, g2, g3, ⟨s, g4, g5⟩, _, ⟨t, g6, g7⟩, g8, _, g9, _, _, _⟩ := proveBlock_header E parent hp 0 ext r b hx
  refine ⟨g3, g9, ⟨s, g4, g5, C34_roundtrip_same E.H E.pc b.header g2 s g4 g5⟩, ?_, special_root_tx E.H E.txs _ g8⟩
  rw [g7, g1]
  exact special_root_ext E.H ext t g6

/-- The blocks of the example. -/
example : ∃ bs, blockStream cgEnv none (cgRand 0) [cgRand 1, cgRand 2, cgRand 3, cgRand 4, cgRand 5] = .ok bs ∧ bs.length = 5 ∧
    ∀ b ∈ bs, MerkleRoot cgEnv.H (b.extension.map kvToLeaf) b.header.extensionRoot := by
  obtain ⟨bs, h⟩ := cg_stream
  exact ⟨bs, h, (stream_made cgEnv _ _ bs h).1, fun b hb => (C105_header cgEnv _ _ bs h b hb).2.2.2.1⟩

/-- C105: every block has a proof of work that satisfies the equation of Autolykos version 1 and meets the target of the header. -/
theorem C105_work {K : Type} [CommGroup K] [DecidableEq K] (E : Env K) (g : K) (hg : g ^ groupOrder = 1) (hpub : ∀ x, E.pub x = g ^ x)
    (r0 : Rand) (rs : List Rand) (bs : List (Block K)) (h : blockStream E none r0 rs = .ok bs) (b : Block K) (hb : b ∈ bs) :
    Autolykos1 E.H E.pc g b.header ∧
      ∃ d, E.pow.P.powHit E.H b.header = .ok d ∧ 0 ≤ d ∧ d ≤ curveOrder.tdiv (decodeCompact b.header.nBits) := by
  obtain ⟨_, hm⟩ := stream_made E r0 rs bs h
  obtain ⟨parent, ext, r, hp, hx⟩ := hm b hb
  obtain ⟨_, _, g3, _, _, _, _, _, _, g10, _, d, g11, g12, g13⟩ := proveBlock_header E parent hp 0 ext r b hx
  refine ⟨proveBlock_equation E g hg hpub parent 0 ext r b hx, d, ?_, g12, ?_⟩
  · unfold PowScheme.powHit
    rw [if_pos g3, g11]
  · rw [g10, startBits_one, Int.tdiv_one]; omega

/-- The level is never negative, without any assumption on the group. -/
theorem C105_target (E : Env G) (r0 : Rand) (rs : List Rand) (bs : List (Block G)) (h : blockStream E none r0 rs = .ok bs) (b : Block G)
    (hb : b ∈ bs) : ∃ d, E.pow.P.powHit E.H b.header = .ok d ∧ 0 ≤ d ∧ d < curveOrder := by
  obtain ⟨_, hm⟩ := stream_made E r0 rs bs h
  obtain ⟨parent, ext, r, hp, hx⟩ := hm b hb
  obtain ⟨_, _, g3, _, _, _, _, _, _, g10, _, d, g11, g12, g13⟩ := proveBlock_header E parent hp 0 ext r b hx
  refine ⟨d, ?_, g12, g13⟩
  unfold PowScheme.powHit
  rw [if_pos g3, g11]

/-- The trivial group meets the assumptions on the group; the blocks of the small environment meet the target. -/
example : ((1 : Multiplicative (ZMod 1)) ^ groupOrder = 1) ∧ ∃ bs, blockStream cgEnv none (cgRand 0)
    [cgRand 1, cgRand 2, cgRand 3, cgRand 4, cgRand 5] = .ok bs ∧ ∀ b ∈ bs, ∃ d, cgEnv.pow.P.powHit cgEnv.H b.header = .ok d ∧ 0 ≤ d := by
  obtain ⟨bs, h⟩ := cg_stream
  refine ⟨one_pow _, bs, h, fun b hb => ?_⟩
  obtain ⟨d, h1, h2, _⟩ := C105_target cgEnv _ _ bs h b hb
  exact ⟨d, h1, h2⟩

/-- C105, violation: an error on the way to the interlinks is dropped.  Started from a block whose level cannot be computed (a version
1 header without distance), the stream makes a block without interlinks, and the block after it panics. -/
theorem C105_lost_links_violates (E : Env G) (b nb : Block G) (hv : b.header.version = 1) (hd : b.header.solution.distance = none)
    (hn : decodeCompact b.header.nBits ≠ 0) (h1 : 2 ≤ b.header.height.toNat) (h2 : b.header.height.toNat + 1 < 2 ^ 32)
    (hid : b.header.id.length = 32) (links : List Bytes)
    (hl : unpackInterlinks b.extension = .ok links) (hne : links ≠ []) (r r' : Rand) (h : nextBlock E (some b) 1 r = .ok nb) :
    updateInterlinks E.pow b.header links = .err ∧ nb.extension = [] ∧ nextBlock E (some nb) 1 r' = .panic := by
  have hh : b.header.height ≠ 1 := by
    intro e; rw [e] at h1; exact absurd h1 (by decide)
  have hu : updateInterlinks E.pow b.header links = .err := by
    unfold updateInterlinks
    rw [if_neg hh]
    cases links with
    | nil => exact absurd rfl hne
    | cons g l =>
      dsimp only
      unfold Pow.maxLevel
      rw [if_neg hh, if_neg hn]
      unfold PowScheme.powHit
      rw [if_pos hv, hd]
      rfl
  unfold nextBlock at h
  obtain ⟨ls, e1, h⟩ := Outcome.bind_eq_ok.1 h
  unfold nextLinks at e1
  dsimp only at e1
  rw [hl] at e1
  dsimp only at e1
  rw [hu] at e1
  injection e1 with e1
  subst e1
  obtain ⟨ext, e2, h⟩ := Outcome.bind_eq_ok.1 h
  injection e2 with e2
  subst e2
  obtain ⟨g1, _, _, _, ⟨ph, g5, _, g7⟩, _⟩ := proveBlock_header E (some b.header) (by intro p hp; injection hp with hp; subst hp; exact hid) 0 [] r nb h
  obtain ⟨x, g13, g14⟩ := Outcome.bind_eq_ok.1 (show (nextHeight E.mode b.header.height >>= _) = _ from g5)
  injection g14 with g14
  subst g14
  have hx := (nextHeight_ok _ _ _ g13).1
  have hh' : nb.header.height ≠ 1 := by
    rw [g7, hx]
    intro e
    have := congrArg BitVec.toNat e
    rw [BitVec.toNat_add, show (1 : BitVec 32).toNat = 1 from rfl, Nat.mod_eq_of_lt h2] at this
    omega
  refine ⟨hu, g1, ?_⟩
  unfold nextBlock nextLinks
  dsimp only
  rw [g1]
  show ((match updateInterlinks E.pow nb.header [] with
      | .ok r => Outcome.ok r
      | .err => .ok []
      | .panic => .panic) >>= _) = _
  unfold updateInterlinks
  rw [if_neg hh']
  rfl

/-- A block at height 7 without distance, to start from. -/
def cgLost : ChainGen.Block (Fin 3) :=
  { header := { headerV1 with height := 7, solution := { headerV1.solution with distance := none } },
    extension := [{ k0 := 1, k1 := 0, value := 1 :: List.replicate 32 9 }] }

example : (match nextBlock cgEnv (some cgLost) 1 (cgRand 1) with
    | .ok nb => nb.extension.isEmpty && (match nextBlock cgEnv (some nb) 1 (cgRand 2) with
      | .panic => true
      | _ => false)
    | _ => false) = true := by
  decide +kernel

/-- C105, later versions (`next_block` takes the version as an argument; the stream uses 1): if a solution is found, the block refers to
its parent, its id is the hash of its bytes, it commits to the extension and to the transactions with their proofs, and the recorded distance meets the target.  What a verifier computes from the header is
the same number as long as the sum of the 32 elements has 248 bits or more.  (Missing: below that the generator hashes a shorter form of
the sum than the verifier, see `C105_short_sum_violates`.) -/
theorem C105_later_partial (E : Env G) (v : Byte) (hv : v ≠ 1) (p : Header G) (ts : BitVec 64) (ext : List ExtField) (r : Rand)
    (b : Block G) (h : proveBlock E (some p) v ts ext r = .ok b) (hf : b.header.solution.nonce ≠ []) :
    b.header.version = v ∧ b.extension = ext ∧ b.header.parentId = p.id ∧ b.header.height = p.height + 1 ∧
      (∃ s, b.header.ser E.pc = .ok s ∧ b.header.id = E.H s) ∧
      MerkleRoot E.H (ext.map kvToLeaf) b.header.extensionRoot ∧
      MerkleRoot E.H (E.txs.map fun t => E.H t.toSign ++ t.proofs.flatten) b.header.transactionRoot ∧
      ∃ f : Nat, f ≤ 2 ^ 253 ∧ PowScheme.default.powHit E.H b.header = .ok (beNat (E.H (natBe 32 f)) : Nat) ∧
        b.header.solution.distance = some ((beNat (E.H (toSignedBe f)) : Nat) : Int) ∧
        ((beNat (E.H (toSignedBe f)) : Nat) : Int) ≤ curveOrder.tdiv (decodeCompact b.header.nBits) ∧
        (2 ^ 247 ≤ f → ∃ d, PowScheme.default.powHit E.H b.header = .ok d ∧ b.header.solution.distance = some d ∧
          d ≤ curveOrder.tdiv (decodeCompact b.header.nBits)) := by
  obtain ⟨ph, d, f, s, g1, g2, g3, g4, g5, _, g7, g8, g9, g10, g11, g12, g13, g14, t, g15, g16⟩ := proveBlock_later E v hv (some p) ts ext r b h hf
  obtain ⟨x, y1, y2⟩ := Outcome.bind_eq_ok.1 (show (nextHeight E.mode p.height >>= _) = _ from g1)
  injection y2 with y2
  subst y2
  subst g9
  refine ⟨g3, g2, g4, ?_, ⟨s, g10, g11⟩, by rw [g16]; exact special_root_ext E.H ext t g15,
    special_root_tx_later E.H E.txs v hv _ g14, f, g12, g13, g7, g8, fun hb => ⟨_, ?_, g7, g8⟩⟩
  · rw [g5, (nextHeight_ok _ _ _ y1).1]
  · rw [natBe_signed f hb (Nat.lt_of_le_of_lt g12 (by decide))]; exact g13

/-- C105, violation: a header of a later version with a solution is not read back as it was, whatever bytes it is read from: reading
never gives a one-time key or a distance, which the generator records. -/
theorem C105_later_violates (E : Env G) (v : Byte) (hv : v ≠ 1) (parent : Option (Header G)) (ts : BitVec 64) (ext : List ExtField)
    (r : Rand) (b : Block G) (h : proveBlock E parent v ts ext r = .ok b) (hf : b.header.solution.nonce ≠ []) (s rest : Bytes) :
    Header.parse E.H E.pc s ≠ some (b.header, rest) := by
  obtain ⟨_, _, _, _, _, _, g3, _, _, g6, _⟩ := proveBlock_later E v hv parent ts ext r b h hf
  intro e
  have := ((C34_read_good E.H E.pc s rest b.header e).1.v2 (by rw [g3]; exact hv)).1
  rw [g6] at this
  cases this

/-- A hash for an example: all ones in front of the table constant, all 255 for the number `0x2020…20` in 32 bytes. -/
def shortHash : HashFn where
  run x := if (x.drop 16).take 8 = [0, 0, 0, 0, 0, 0, 0, 1] then List.replicate 32 1
    else if x.take 2 = [0, 32] then List.replicate 32 255 else shiftHash x
  len x := by
    split
    · simp
    · split
      · simp
      · exact shiftHash.len x

/-- C105, violation: with a sum of the elements below `2^247` the generator accepts a nonce whose hit, as the verifier computes it, does
not meet the target. -/
theorem C105_short_sum_violates : ∃ (b : ChainGen.Block (Fin 3)) (d : Int),
    proveBlock { cgEnv with H := shortHash } (some headerV1) 2 0 [] (cgRand 1) = .ok b ∧ b.header.solution.nonce ≠ [] ∧
      PowScheme.default.powHit shortHash b.header = .ok d ∧ curveOrder.tdiv (decodeCompact b.header.nBits) < d := by
  have h : (match proveBlock { cgEnv with H := shortHash } (some headerV1) 2 0 [] (cgRand 1) with
    | .ok b => !b.header.solution.nonce.isEmpty && (match PowScheme.default.powHit shortHash b.header with
      | .ok d => decide (curveOrder.tdiv (decodeCompact b.header.nBits) < d)
      | _ => false)
    | _ => false) = true := by decide +kernel
  split at h
  · next b e =>
    rw [Bool.and_eq_true] at h
    obtain ⟨h1, h2⟩ := h
    split at h2
    · next d e2 => exact ⟨b, d, e, (by intro hn; rw [hn] at h1; cases h1), e2, of_decide_eq_true h2⟩
    · cases h2
  · cases h

/-- A block of version 2 made on top of the same header, with `shiftHash`: the sum is large, the hits agree. -/
theorem cg_later : ∃ b, proveBlock cgEnv (some headerV1) 2 0 [] (cgRand 1) = .ok b ∧ b.header.solution.nonce ≠ [] ∧
    PowScheme.default.powHit cgEnv.H b.header = .ok (b.header.solution.distance.getD 0) := by
  have h : (match proveBlock cgEnv (some headerV1) 2 0 [] (cgRand 1) with
    | .ok b => !b.header.solution.nonce.isEmpty && (match PowScheme.default.powHit cgEnv.H b.header with
      | .ok d => decide (d = b.header.solution.distance.getD 0)
      | _ => false)
    | _ => false) = true := by decide +kernel
  split at h
  · next b e =>
    rw [Bool.and_eq_true] at h
    obtain ⟨h1, h2⟩ := h
    split at h2
    · next d e2 => exact ⟨b, e, (by intro hn; rw [hn] at h1; cases h1), by rw [e2, of_decide_eq_true h2]⟩
    · cases h2
  · cases h

example : ∃ b, proveBlock cgEnv (some headerV1) 2 0 [] (cgRand 1) = .ok b ∧ b.header.version = 2 ∧ b.header.height = headerV1.height + 1 ∧
    ∀ s rest, Header.parse cgEnv.H cgEnv.pc s ≠ some (b.header, rest) := by
  obtain ⟨b, h1, h2, _⟩ := cg_later
  obtain ⟨g1, _, _, g4, _⟩ := C105_later_partial cgEnv 2 (by decide) headerV1 0 [] _ b h1 h2
  exact ⟨b, h1, g1, g4, fun s rest => C105_later_violates cgEnv 2 (by decide) _ 0 [] _ b h1 h2 s rest⟩

/-- All zeros, whatever is hashed. -/
def zeroHash : HashFn where
  run _ := List.replicate 32 0
  len _ := by simp

/-- C105, violation: a seed with four zero bytes in a row makes the generator panic (the index zero, see C45), so that a stream may not
give out its first block. -/
theorem C105_panic_violates : blockStream { cgEnv with H := zeroHash } none (cgRand 0) [] = .panic := by
  have h : (match blockStream { cgEnv with H := zeroHash } none (cgRand 0) [] with
    | .panic => true
    | _ => false) = true := by decide +kernel
  split at h
  · assumption
  · cases h

end Verif
