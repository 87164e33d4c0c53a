import Verif.Props.Transaction
import Verif.Props.Peer
import Verif.Props.Autolykos
import Verif.Model.Expr
import Verif.Model.EvalValue

/-!
# Further facts: sizes and codes that have to agree between parts of the code (C11, C12, C45, C47, C62)
-/

set_option linter.unusedVariables false
set_option linter.unusedSimpArgs false

namespace Verif

variable {G B T : Type}

/-! ## C11: the table of token ids -/

/-- C11: the table of token ids of a transaction is read up to 65535 outputs of 122 tokens each, and refused above whatever follows. -/
theorem C11_token_table_limit (n : BitVec 32) (rest : Bytes) :
    (65535 * 122 < n.toNat → parseIds (putU32 n ++ rest) = none) ∧
    (n.toNat ≤ 65535 * 122 → 32 * n.toNat ≤ rest.length → ∃ ids, parseIds (putU32 n ++ rest) = some (ids, rest.drop (32 * n.toNat))) := by
  unfold parseIds
  rw [Parser.bind_some (getU32_put _ _)]
  refine ⟨fun h => ?_, fun h hl => ?_⟩
  · rw [if_pos (by unfold maxOutputsCount maxTokensCount; omega)]
    rfl
  · rw [if_neg (by unfold maxOutputsCount maxTokensCount; omega)]
    have key : ∀ (k : Nat) (r : Bytes), 32 * k ≤ r.length → ∃ l, replicateP k (readExact 32) r = some (l, r.drop (32 * k)) := by
      intro k
      induction k with
      | zero => intro r _; exact ⟨[], by simp [replicateP]⟩
      | succ k ih =>
        intro r hr
        obtain ⟨l, hl⟩ := ih (r.drop 32) (by rw [List.length_drop]; omega)
        refine ⟨r.take 32 :: l, ?_⟩
        unfold replicateP
        have h1 : readExact 32 r = some (r.take 32, r.drop 32) := by
          conv_lhs => rw [← List.take_append_drop 32 r]
          exact readExact_append' _ _ (by rw [List.length_take]; omega)
        rw [Parser.bind_some h1, Parser.bind_some hl, List.drop_drop]
        show some (_, _) = _
        rw [show 32 + 32 * k = 32 * (k + 1) by omega]
    obtain ⟨l, hl⟩ := key _ rest hl
    exact ⟨IdSet.ofList l, by rw [Parser.bind_some hl]; rfl⟩

/-- Both sides of the limit. -/
example : 65535 * 122 < (7995271 : BitVec 32).toNat ∧ (7995270 : BitVec 32).toNat ≤ 65535 * 122 := by decide

/-! ## C12: registers are expressions -/

mutual
/-- The expression a register value stands for. -/
def RItem.toExpr : RItem G B → Expr G B
  | .const c => .const c
  | .tuple l => .tuple (RItem.toExprs l)
/-- The items of a tuple. -/
def RItem.toExprs : List (RItem G B) → List (Expr G B)
  | [] => []
  | x :: l => RItem.toExpr x :: RItem.toExprs l
end

theorem RItem.toExprs_length : ∀ l : List (RItem G B), (RItem.toExprs l).length = l.length
  | [] => rfl
  | _ :: l => by simp only [RItem.toExprs, List.length_cons, RItem.toExprs_length l]

mutual
/-- C12: the bytes of a register value are those of the expression it stands for, written without a store of constants: a register
can be read as an expression and the other way round. -/
theorem C12_same_expr [DecidableEq G] (E : Sers G B T) : ∀ i : RItem G B,
    Expr.ser E i.toExpr none = (i.ser E >>= fun b => .ok (b, none))
  | .const c => by
    simp only [RItem.toExpr, Expr.ser, RItem.ser]
    rfl
  | .tuple l => by
    simp only [RItem.toExpr, Expr.ser, RItem.ser, C12_same_exprs E l, RItem.toExprs_length]
    cases RItem.serAll E l <;> rfl
/-- C12: the same for the items of a tuple. -/
theorem C12_same_exprs [DecidableEq G] (E : Sers G B T) : ∀ l : List (RItem G B),
    Expr.serAll E (RItem.toExprs l) none = (RItem.serAll E l >>= fun b => .ok (b, none))
  | [] => rfl
  | x :: l => by
    simp only [RItem.toExprs, Expr.serAll, RItem.serAll, C12_same_expr E x]
    cases RItem.ser E x with
    | err => rfl
    | panic => rfl
    | ok a =>
      simp only [Outcome.bind_ok]
      rw [C12_same_exprs E l]
      cases RItem.serAll E l <;> rfl
end

/-- A pair of `Int` constants: code, length and the two items. -/
example : (RItem.tuple [.const (intConst 1), .const (intConst 2)]).ser toySers = .ok [0x86, 2, 4, 2, 4, 4] := by decide +kernel

/-- C12: `sigma_serialize_bytes` has no error to return; it panics exactly on the values that cannot be written. -/
theorem C12_bytes_panic [DecidableEq G] (E : Sers G B T) (v : RegVal G B) :
    v.serBytes E ≠ .err ∧
      (v.serBytes E = .panic ↔ (∀ b, v ≠ .invalid b) ∧ ∀ bs, v.ser E ≠ .ok bs) := by
  cases v with
  | invalid b => exact ⟨by simp [RegVal.serBytes], by simp [RegVal.serBytes]⟩
  | parsed c => simp only [RegVal.serBytes]; cases h : (RegVal.parsed c).ser E <;> simp
  | tupleExpr l => simp only [RegVal.serBytes]; cases h : (RegVal.tupleExpr l).ser E <;> simp

/-- A constant that cannot be written: no value. -/
example : (RegVal.parsed (⟨.option .int, .none⟩ : Constant _ _)).serBytes toySers = .panic := by decide +kernel

/-! ## C52: joining collections -/

/-- C52: joining byte collections with the type of their items gives the bytes of all of them, in order.  (`flatMap` passes the type
of the collections instead, see `C52_violation_bytes`.) -/
theorem C52_join_bytes (l : List Bytes) :
    Value.fromVecVec (G := G) (B := B) .byte (l.map .collByte) = .ok (.collByte l.flatten) := by
  have h : ∀ l : List Bytes, Res.mapAll (Value.asBytes (G := G) (B := B)) (l.map .collByte) = .ok l := by
    intro l
    induction l with
    | nil => rfl
    | cons a l ih => simp only [List.map_cons, Res.mapAll, ih]; rfl
  unfold Value.fromVecVec
  simp only [h]
  rfl

example : Value.fromVecVec (G := Fin 3) (B := Empty) .byte [.collByte [1, 2], .collByte [], .collByte [3]] = .ok (.collByte [1, 2, 3]) :=
  C52_join_bytes [[1, 2], [], [3]]

/-! ## C45: the constant of the proof of work, the value of the hit -/

/-- The constant `M` of Autolykos: 1024 numbers of eight bytes, in order. -/
def IsBigM (M : Bytes) : Prop := M.length = 8192 ∧ ∀ i < 1024, beNat ((M.drop (8 * i)).take 8) = i

theorem flatMap_range_get (k : Nat) : ∀ n i, i < n →
    (((List.range n).flatMap fun x => natBe k x).drop (k * i)).take k = natBe k i := by
  intro n
  induction n with
  | zero => intro i h; omega
  | succ n ih =>
    intro i h
    have hlen : ((List.range n).flatMap fun x => natBe k x).length = k * n := by
      simp [List.length_flatMap, natBe_length, Nat.mul_comm]
    rw [List.range_succ, List.flatMap_append]
    rcases Nat.lt_succ_iff_lt_or_eq.1 h with h | rfl
    · have : k * (i + 1) ≤ k * n := Nat.mul_le_mul_left k h
      rw [Nat.mul_add, Nat.mul_one] at this
      rw [List.drop_append_of_le_length (by omega), List.take_append_of_le_length (by rw [List.length_drop]; omega), ih i h]
    · rw [List.drop_append, List.drop_eq_nil_of_le (by omega), hlen, Nat.sub_self]
      simp only [List.flatMap_cons, List.flatMap_nil, List.append_nil, List.nil_append, List.drop_zero]
      exact List.take_of_length_le (by rw [natBe_length])

theorem chunks_eq (k : Nat) (hk : 0 < k) : ∀ (n : Nat) (a b : Bytes), a.length = k * n → b.length = k * n →
    (∀ i < n, (a.drop (k * i)).take k = (b.drop (k * i)).take k) → a = b := by
  intro n
  induction n with
  | zero =>
    intro a b ha hb _
    obtain rfl : a = [] := List.length_eq_zero_iff.1 (by simpa using ha)
    obtain rfl : b = [] := List.length_eq_zero_iff.1 (by simpa using hb)
    rfl
  | succ n ih =>
    intro a b ha hb h
    rw [Nat.mul_add, Nat.mul_one] at ha hb
    rw [← List.take_append_drop k a, ← List.take_append_drop k b]
    congr 1
    · simpa using h 0 (by omega)
    · refine ih _ _ (by rw [List.length_drop]; omega) (by rw [List.length_drop]; omega) fun i hi => ?_
      rw [List.drop_drop, List.drop_drop]
      have := h (i + 1) (by omega)
      rwa [Nat.mul_add, Nat.mul_one, Nat.add_comm] at this

theorem flatMap_range_length (k n : Nat) : ((List.range n).flatMap fun x => natBe k x).length = k * n := by
  simp [List.length_flatMap, natBe_length, Nat.mul_comm]

theorem chunks_iff (n : Nat) (hn : n ≤ 256 ^ 8) (M : Bytes) :
    (M.length = 8 * n ∧ ∀ i < n, beNat ((M.drop (8 * i)).take 8) = i) ↔ M = (List.range n).flatMap fun x => natBe 8 x := by
  constructor
  · rintro ⟨h1, h2⟩
    refine chunks_eq 8 (by decide) n _ _ h1 (flatMap_range_length 8 n) fun i hi => ?_
    rw [flatMap_range_get 8 n i hi, ← natBe_beNat ((M.drop (8 * i)).take 8), h2 i hi]
    congr 1
    rw [List.length_take, List.length_drop]
    omega
  · rintro rfl
    refine ⟨flatMap_range_length 8 n, fun i hi => ?_⟩
    rw [flatMap_range_get 8 n i hi, beNat_natBe]
    exact Nat.mod_eq_of_lt (by omega)

theorem isBigM_iff (M : Bytes) : IsBigM M ↔ M = PowScheme.calcBigM := chunks_iff 1024 (by decide) M

/-- C45: what the hit of a header of version 2 or later is, when it is computed: the elements of the table with the 32 indexes are
summed up and the sum is hashed, each element being 31 bytes of the hash of its index, the height and the constant `M`. -/
theorem C45_hit_value (H : HashFn) (h : Header G) (hv : h.version ≠ 1) (M : Bytes) (hM : IsBigM M) (x : Int)
    (hx : PowScheme.default.powHit H h = .ok x) :
    ∃ (seed : Bytes) (N : Nat), N = PowScheme.default.calcBigN h.version h.height ∧
      (∃ i, i = beNat ((H (H h.serWithoutPow ++ h.solution.nonce)).drop 24) % N ∧
        seed = H ((H (natBe 4 i ++ natBe 4 h.height.toNat ++ M)).drop 1 ++ H h.serWithoutPow ++ h.solution.nonce)) ∧
      x = (beNat (H (natBe 32 (((List.range 32).map fun i =>
        beNat ((H (natBe 4 (Spec.window seed i % N) ++ natBe 4 h.height.toNat ++ M)).drop 1)).sum))) : Nat) := by
  rw [isBigM_iff] at hM
  obtain ⟨b1, b2, b3⟩ := C45_table_bound h.version h.height
  obtain ⟨seed, hs, hl, hcase⟩ := C45_hit H h hv _ rfl
  refine ⟨seed, _, rfl, ⟨_, rfl, ?_⟩, ?_⟩
  · have hN : PowScheme.default.calcBigN h.version h.height ≠ 0 := by omega
    unfold PowScheme.calcSeed modBig at hs
    rw [if_neg hN] at hs
    have hlt : beNat ((H (H h.serWithoutPow ++ h.solution.nonce)).drop 24) % PowScheme.default.calcBigN h.version h.height < 256 ^ 4 := by
      have := Nat.mod_lt (beNat ((H (H h.serWithoutPow ++ h.solution.nonce)).drop 24)) (Nat.pos_of_ne_zero hN)
      omega
    change ((asUnsigned 4 _) >>= _) = _ at hs
    rw [asUnsigned_ok _ _ hlt] at hs
    rw [hM]
    injection hs with hs
    exact hs.symm
  · rcases hcase with ⟨hne, _⟩ | ⟨_, hp⟩
    · unfold PowScheme.powHit at hx
      rw [if_neg hv] at hx
      dsimp only at hx
      rw [hs] at hx
      obtain ⟨l, hi, hx⟩ := Outcome.bind_eq_ok.1 (show (PowScheme.default.genIndexes seed _ >>= _) = _ from hx)
      obtain ⟨rfl, _, _⟩ := C45_indexes_partial PowScheme.default (by decide) seed hl _ l hi
      have hsum : ∀ (hb : Bytes) (idx : List Nat) (acc : Nat),
          idx.foldl (fun acc i => acc + beNat ((H (natBe 4 i ++ hb ++ PowScheme.calcBigM)).drop 1)) acc =
            acc + (idx.map fun i => beNat ((H (natBe 4 i ++ hb ++ PowScheme.calcBigM)).drop 1)).sum := by
        intro hb idx
        induction idx with
        | nil => intro acc; simp
        | cons a l ih => intro acc; simp only [List.foldl_cons, List.map_cons, List.sum_cons, ih]; omega
      have hs32 := PowScheme.sumHashes_le H (natBe 4 h.height.toNat) ((List.range PowScheme.default.k).map fun i =>
        Spec.window seed i % PowScheme.default.calcBigN h.version h.height) 0
      have hlt : PowScheme.sumHashes H (natBe 4 h.height.toNat) ((List.range PowScheme.default.k).map fun i =>
        Spec.window seed i % PowScheme.default.calcBigN h.version h.height) < 256 ^ 32 := by
        refine Nat.lt_of_le_of_lt hs32 ?_
        simp only [List.length_map, List.length_range, PowScheme.default]
        decide
      simp only [asUnsigned_ok _ _ hlt] at hx
      injection hx with hx
      rw [← hx]
      unfold PowScheme.sumHashes
      rw [hM, hsum, Nat.zero_add, List.map_map]
      rfl
    · rw [hp] at hx
      cases hx

/-- The constant exists, and its last number is 1023. -/
example : IsBigM PowScheme.calcBigM := (isBigM_iff _).2 rfl

/-! ## C47, C62: addresses of peers -/

/-- C47: the size byte written before a declared address is the number of bytes of the address itself, i.e. of what is written
without the port. -/
theorem C47_size_byte (a b c d : Byte) (port : BitVec 16) :
    PeerSpec.serDeclared (some (.v4 a b c d port)) =
      some ([1, BitVec.ofNat 8 [a, b, c, d].length, a, b, c, d] ++ putU32 (port.setWidth 32)) := rfl

/-- C47: the size of an address is that of its octets. -/
theorem C47_ip_size (o : PeerAddr) : o.ipSize = match o with
    | .v4 a b c d _ => [a, b, c, d].length
    | .v6 ip _ _ _ => (natBe 16 ip.toNat).length := by
  cases o <;> simp [PeerAddr.ipSize, natBe_length]

/-- C62: the address of a peer is the declared one, else that of the first local address feature; a peer can be reached exactly if
there is one of the two. -/
theorem C62_addr (s : PeerSpec) :
    (∀ a, s.declaredAddr = some a → s.addr = some a) ∧
    (∀ a l, s.declaredAddr = none → s.features = some (.localAddress a :: l) → s.addr = some a) ∧
    (s.reachable = true ↔ s.declaredAddr ≠ none ∨ ∃ l, s.features = some l ∧ l ≠ []) := by
  obtain ⟨an, v, nn, da, fs⟩ := s
  refine ⟨?_, ?_, ?_⟩
  · rintro a ⟨⟩; rfl
  · rintro a l ⟨⟩ ⟨⟩; rfl
  · cases da with
    | some a => simp [PeerSpec.reachable, PeerSpec.addr]
    | none =>
      cases fs with
      | none => simp [PeerSpec.reachable, PeerSpec.addr, PeerSpec.localAddr]
      | some l =>
        cases l with
        | nil => simp [PeerSpec.reachable, PeerSpec.addr, PeerSpec.localAddr]
        | cons f l => cases f; simp [PeerSpec.reachable, PeerSpec.addr, PeerSpec.localAddr, PeerFeature.asLocalAddr]

example : peerExample.addr = some (.v4 10 0 0 1 9030) ∧ { peerExample with declaredAddr := none }.reachable = true := by decide

/-- C62: a peer known only by its address speaks the first version of the protocol. -/
theorem C62_from_addr_version (display : PeerAddr → Bytes) (unknown dash : Bytes) (a : PeerAddr) :
    (PeerInfo.fromAddr display unknown dash a).spec.version = ⟨0, 0, 1⟩ := rfl

example : (PeerInfo.fromAddr (fun _ => [1]) [117] [45] (.v4 127 0 0 1 9053)).spec.nodeName = [117, 45, 1] := by decide

end Verif
