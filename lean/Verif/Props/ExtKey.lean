import Verif.Proofs.ExtKey
import Verif.Proofs.DerivationPath
import Verif.Props.SigmaProtocol

set_option linter.unusedVariables false

/-! # C40: key derivation -/

namespace Verif
open Verif.Sigma Verif.Spec

section
variable {G : Type} [DecidableEq G] {q : Nat} [AddCommGroup G] [Module (ZMod q) G]

/-- C40: for a normal index, the public key of the child secret key is the child of the public key: the same point, chain code
and path, and also the same error or panic, whatever the MAC returns and however many invalid indices are skipped. -/
theorem C40_child [Fact q.Prime] (hq : q ≤ 2 ^ 256) (C : Curve G) (hone : C.codec.one = 0) (hgen : C.gen ≠ 0) (m : Mode) (H : Mac)
    (k : ExtSecretKey q) (i : BitVec 32) :
    (k.child C m H (.normal i) >>= fun c => c.publicKey C) = (k.publicKey C >>= fun p => p.child q C m H i) := by
  rw [publicKey_eq, Outcome.bind_ok]
  exact childLoop_commute hq C hone hgen m H k _ i

/-- C40: for a path that goes on from the key's own path with normal indices, deriving the secret key and taking its public key
is deriving from the public key. -/
theorem C40_derive [Fact q.Prime] (hq : q ≤ 2 ^ 256) (C : Curve G) (hone : C.codec.one = 0) (hgen : C.gen ≠ 0) (m : Mode) (H : Mac)
    (k : ExtSecretKey q) (is : List (BitVec 32)) :
    (k.derive C m H (k.path ++ is.map ChildIndex.normal) >>= fun c => c.publicKey C) =
      (k.publicKey C >>= fun p => p.derive q C m H (k.path ++ is.map ChildIndex.normal)) := by
  rw [publicKey_eq, Outcome.bind_ok, secret_derive_append, tryFold_commute hq C hone hgen]
  unfold ExtPubKey.derive
  have hp : (k.pub C).path = k.path := rfl
  rw [hp, if_neg (by rw [List.length_append]; omega), if_pos (prefix_self _ _), List.drop_left]
  rfl

/-- C40: the master key of a seed is that of BIP-32: the first 32 bytes of the MAC of the seed under the key `Bitcoin seed`, read as a
big-endian number, are the secret, which must be below the order; the other 32 are the chain code. -/
theorem C40_master (H : Mac) (seed il ir : Bytes) (hl : il.length = 32)
    (hm : H.run [0x42, 0x69, 0x74, 0x63, 0x6f, 0x69, 0x6e, 0x20, 0x73, 0x65, 0x65, 0x64] seed = il ++ ir) :
    (ExtSecretKey.deriveMaster H seed : Outcome (ExtSecretKey q)) =
      if Sigma.beNat il < q then .ok ⟨(Sigma.beNat il : ZMod q), ir, []⟩ else .err := by
  unfold ExtSecretKey.deriveMaster
  have hs : ("Bitcoin seed".toList.map fun c => BitVec.ofNat 8 c.toNat) =
    [0x42, 0x69, 0x74, 0x63, 0x6f, 0x69, 0x6e, 0x20, 0x73, 0x65, 0x65, 0x64] := by decide
  simp only [hs, hm, List.take_left' hl, List.drop_left' hl]
  unfold ExtSecretKey.new keyOfBytes
  split <;> simp_all

/-- A public key refuses a path that has a hardened index in the part to derive: no key is returned. -/
theorem C40_hardened_refused (C : Curve G) (m : Mode) (H : Mac) (p c : ExtPubKey G) (u : DerivationPath)
    (h : p.derive q C m H u = .ok c) : ∀ a, ChildIndex.hardened a ∉ u.drop p.path.length := by
  unfold ExtPubKey.derive at h
  split at h
  · cases h
  split at h
  · intro a
    generalize u.drop p.path.length = r at h
    clear * - h
    induction r generalizing p with
    | nil => simp
    | cons i is ih =>
      obtain ⟨p1, h1, h2⟩ := Outcome.bind_eq_ok.1 h
      cases i with
      | hardened b => cases h1
      | normal b =>
        rw [List.mem_cons]
        rintro (h' | h')
        · cases h'
        · exact ih p1 h2 h'
  · cases h

/-- C40, staging: if deriving along `u` gave `k1`, then deriving further from `k1`, along the path `k1` carries, is deriving in
one go. -/
theorem C40_staged (C : Curve G) (m : Mode) (H : Mac) (k k1 : ExtSecretKey q) (u r : DerivationPath)
    (h : k.derive C m H u = .ok k1) : k1.derive C m H (k1.path ++ r) = k.derive C m H (u ++ r) := by
  obtain ⟨s, rfl, hs⟩ := secret_derive_ok h
  rw [secret_derive_append, List.append_assoc, secret_derive_append, tryFold_append, hs, Outcome.bind_ok]

/-- C40, staging, as a user would write it: with the requested path (partial).  Missing: if an index was skipped the stored path
is not the requested one and the second derivation is refused (`C40_violation_skipped`). -/
theorem C40_staged_partial (C : Curve G) (m : Mode) (H : Mac) (k k1 : ExtSecretKey q) (u r : DerivationPath)
    (h : k.derive C m H u = .ok k1) (hp : k1.path = u) : k1.derive C m H (u ++ r) = k.derive C m H (u ++ r) := by
  have := C40_staged C m H k k1 u r h
  rwa [hp] at this

/-- A derived key's path extends the parent's path and has the requested depth. -/
theorem C40_path (C : Curve G) (m : Mode) (H : Mac) (k k1 : ExtSecretKey q) (u : DerivationPath) (h : k.derive C m H u = .ok k1) :
    k.path <+: k1.path ∧ k.path <+: u ∧ k1.path.length = u.length := by
  obtain ⟨r, rfl, hr⟩ := secret_derive_ok h
  obtain ⟨r', hl, hp⟩ := tryFold_path C m H r k k1 hr
  exact ⟨⟨r', hp.symm⟩, ⟨r, rfl⟩, by rw [hp, List.length_append, List.length_append, hl]⟩

/-! ## Agreement with BIP-32 -/

/-- `IL`, `IR` of BIP-32's private child key derivation, written out: the MAC under the chain code of `0x00 ‖ ser256(k) ‖
ser32(i + 2^31)` (hardened) or `serP(point(k)) ‖ ser32(i)`. -/
def Spec.bip32I (C : Curve G) (H : Mac) (k : ExtSecretKey q) : ChildIndex → Bytes
  | .hardened i => H.run k.chainCode ([0#8] ++ Sigma.natBe 32 k.secret.val ++ Sigma.natBe 4 (2 ^ 31 + i.toNat))
  | .normal i => H.run k.chainCode (putPoint C.codec (k.secret • C.gen) ++ Sigma.natBe 4 i.toNat)

theorem mac_bip32 (C : Curve G) (hone : C.codec.one = 0) (H : Mac) (k : ExtSecretKey q) (i : ChildIndex) (hi : ChildIndexInRange i) :
    k.mac C H i = Spec.bip32I C H k i := by
  cases i with
  | hardened i =>
    unfold ExtSecretKey.mac Spec.bip32I
    have : (0x80000000#32 ||| i).toNat = 2 ^ 31 + i.toNat := by
      have hi' : i.toNat < 2 ^ 31 := hi
      rw [BitVec.toNat_or, show (0x80000000#32).toNat = 2 ^ 31 * 1 from rfl, ← Nat.two_pow_add_eq_or_of_lt hi', Nat.mul_one]
    simp only [ChildIndex.toBits]
    rw [be4_eq, this]
    simp only [scalarBytes, List.cons_append, List.nil_append]
  | normal i =>
    unfold ExtSecretKey.mac Spec.bip32I ExtSecretKey.publicBytes
    simp only [ChildIndex.toBits]
    rw [be4_eq, publicImage_eq C hone]

/-- C40: `child` is BIP-32's CKDpriv: with `IL` below the order and `IL + k ≠ 0` the child key is `IL + k`, its chain code `IR`,
its path extended by the index; otherwise the next index is used. -/
theorem C40_bip32 [Fact q.Prime] (hq : q ≤ 2 ^ 256) (C : Curve G) (hone : C.codec.one = 0) (m : Mode) (H : Mac) (k : ExtSecretKey q)
    (i : ChildIndex) (hi : ChildIndexInRange i) (hl : Sigma.beNat ((Spec.bip32I C H k i).take 32) < q)
    (hz : (Sigma.beNat ((Spec.bip32I C H k i).take 32) : ZMod q) + k.secret ≠ 0) :
    k.child C m H i = .ok ⟨(Sigma.beNat ((Spec.bip32I C H k i).take 32) : ZMod q) + k.secret, (Spec.bip32I C H k i).drop 32,
      k.path ++ [i]⟩ := by
  haveI : NeZero q := ⟨(Fact.out : q.Prime).ne_zero⟩
  unfold ExtSecretKey.child
  rw [show (2 : Nat) ^ 32 = (2 ^ 32 - 1) + 1 from rfl]
  generalize (2 : Nat) ^ 32 - 1 = fuel
  rw [ExtSecretKey.childLoop]
  simp only
  rw [mac_bip32 C hone H k i hi]
  unfold keyOfBytes
  rw [if_pos hl]
  simp only
  rw [if_neg hz, new_scalarBytes hq]

/-- C40: when `IL` is not below the order, the key returned is the one the next index gives. -/
theorem C40_skip (C : Curve G) (m : Mode) (H : Mac) (k c : ExtSecretKey q) (i j : ChildIndex)
    (hl : q ≤ Sigma.beNat ((k.mac C H i).take 32)) (hn : i.next m = .ok j) (h : k.child C m H i = .ok c) :
    k.child C m H j = .ok c := by
  unfold ExtSecretKey.child at *
  rw [show (2 : Nat) ^ 32 = (2 ^ 32 - 1) + 1 from rfl] at *
  generalize (2 : Nat) ^ 32 - 1 = fuel at *
  rw [childLoop_skip C m H k fuel i (by unfold keyOfBytes; rw [if_neg (by omega)]) hn] at h
  exact childLoop_mono C m H k c fuel j h

/-- Someone who knows the parent's extended public key and the secret of one normal child computes the parent's secret (BIP-32's
warning about normal derivation holds of this code). -/
theorem C40_parent_recoverable (C : Curve G) (H : Mac) (k : ExtSecretKey q) (i : BitVec 32) (il : ZMod q)
    (h : keyOfBytes (((k.pub C).mac C H i).take 32) = some il) (m : Mode) (hne : il + k.secret ≠ 0) (c : ExtSecretKey q)
    (hc : k.child C m H (.normal i) = .ok c) [NeZero q] (hq : q ≤ 2 ^ 256) : k.secret = c.secret - il := by
  unfold ExtSecretKey.child at hc
  rw [show (2 : Nat) ^ 32 = (2 ^ 32 - 1) + 1 from rfl] at hc
  generalize (2 : Nat) ^ 32 - 1 = fuel at hc
  rw [ExtSecretKey.childLoop] at hc
  simp only [mac_normal, h] at hc
  rw [if_neg hne, new_scalarBytes hq] at hc
  cases hc
  simp

/-- `derive` panics on every path shorter than the key's own (the code intends an error). -/
theorem C40_violation_short (C : Curve G) (m : Mode) (H : Mac) (k : ExtSecretKey q) (u : DerivationPath)
    (h : u.length < k.path.length) : k.derive C m H u = .panic := if_pos h

end

/-! ## Concrete keys -/

/-- A MAC with small left halves: the sum of the bytes of key and message modulo 3 for most inputs, and an out of range left half
when the message ends in byte 5. -/
def toyMac : Mac where
  run k msg :=
    (if msg.getLast? = some 5#8 then List.replicate 32 0xFF#8
     else List.replicate 31 0#8 ++ [BitVec.ofNat 8 ((k ++ msg).foldl (fun a b => a + b.toNat) 0 % 3)]) ++
    (msg ++ List.replicate 32 7#8).take 32
  len k msg := by
    rw [List.length_append, List.length_take, List.length_append, List.length_replicate]
    split <;> simp

/-- A master key of the toy curve. -/
def toyKey : ExtSecretKey 3 := ⟨2, List.replicate 32 1#8, []⟩

instance : Fact (Nat.Prime 3) := ⟨Nat.prime_three⟩

/-- The hypotheses of the theorems above hold for the toy curve, and derivation succeeds on it; deriving to index 5 skips to 6. -/
example : (3 : Nat) ≤ 2 ^ 256 ∧ toyCurve.codec.one = 0 ∧ toyCurve.gen ≠ 0 := by decide

theorem toyKey_child5 (m : Mode) : toyKey.child toyCurve m toyMac (.normal 5#32) =
    .ok ⟨2, (toyKey.mac toyCurve toyMac (.normal 6#32)).drop 32, [.normal 6#32]⟩ := by
  unfold ExtSecretKey.child
  rw [show (2 : Nat) ^ 32 = (2 ^ 32 - 2) + 1 + 1 from rfl]
  generalize (2 : Nat) ^ 32 - 2 = fuel
  rw [childLoop_skip (j := .normal 6#32) _ _ _ _ _ _ (by decide +kernel) (by cases m <;> decide +kernel),
    childLoop_take (il := 0) (by decide) _ _ _ _ _ _ (by decide +kernel) (by decide +kernel)]
  rfl

theorem toyKey_hardened2 (m : Mode) : toyKey.child toyCurve m toyMac (.hardened 2#32) =
    .ok ⟨1, (toyKey.mac toyCurve toyMac (.hardened 2#32)).drop 32, [.hardened 2#32]⟩ := by
  unfold ExtSecretKey.child
  rw [show (2 : Nat) ^ 32 = (2 ^ 32 - 1) + 1 from rfl]
  generalize (2 : Nat) ^ 32 - 1 = fuel
  rw [childLoop_take (il := 2) (by decide) _ _ _ _ _ _ (by decide +kernel) (by decide +kernel)]
  rfl

/-- The hypotheses of the staging theorems, of `C40_path` and of `C40_bip32` hold for the toy key and index 2'. -/
example (m : Mode) : ∃ k1, toyKey.derive toyCurve m toyMac [.hardened 2#32] = .ok k1 ∧ k1.path = [.hardened 2#32] :=
  ⟨_, by
    have h := secret_derive_append toyCurve m toyMac toyKey [.hardened 2#32]
    rw [show toyKey.path ++ [ChildIndex.hardened 2#32] = [.hardened 2#32] from rfl] at h
    rw [h]
    show (toyKey.child toyCurve m toyMac (.hardened 2#32) >>= fun k => tryFold _ k []) = _
    rw [toyKey_hardened2]
    rfl, rfl⟩

example : ChildIndexInRange (.hardened 2#32) ∧ Sigma.beNat ((Spec.bip32I toyCurve toyMac toyKey (.hardened 2#32)).take 32) < 3 ∧
    (Sigma.beNat ((Spec.bip32I toyCurve toyMac toyKey (.hardened 2#32)).take 32) : ZMod 3) + toyKey.secret ≠ 0 := by
  decide +kernel

/-- And those of `C40_parent_recoverable` and `C40_skip`. -/
example (m : Mode) : keyOfBytes (((toyKey.pub toyCurve).mac toyCurve toyMac 6#32).take 32) = some (0 : ZMod 3) ∧
    (0 : ZMod 3) + toyKey.secret ≠ 0 ∧
    Sigma.beNat ((toyKey.mac toyCurve toyMac (.normal 5#32)).take 32) ≥ 3 ∧
    ChildIndex.next m (.normal 5#32) = .ok (.normal 6#32) ∧ ∃ c, toyKey.child toyCurve m toyMac (.normal 5#32) = .ok c := by
  refine ⟨by decide +kernel, by decide +kernel, by decide +kernel, by cases m <;> decide +kernel, _, toyKey_child5 m⟩

/-- C40 fails for staging with the requested path when an index is skipped: `m/5` is derived (as `m/6`), but going on from the
derived key along a path that begins with `m/5` — even `m/5` itself — is refused, though it works in one go. -/
theorem C40_violation_skipped (m : Mode) : ∃ k1, toyKey.derive toyCurve m toyMac [.normal 5#32] = .ok k1 ∧
    k1.derive toyCurve m toyMac [.normal 5#32] = .err ∧ k1.path = [.normal 6#32] := by
  refine ⟨⟨2, (toyKey.mac toyCurve toyMac (.normal 6#32)).drop 32, [.normal 6#32]⟩, ?_, by with_unfolding_all rfl, rfl⟩
  have h := secret_derive_append toyCurve m toyMac toyKey [.normal 5#32]
  rw [show toyKey.path ++ [ChildIndex.normal 5#32] = [.normal 5#32] from rfl] at h
  rw [h]
  show (toyKey.child toyCurve m toyMac (.normal 5#32) >>= fun k => tryFold _ k []) = _
  rw [toyKey_child5]
  rfl

/-- A key deeper than the path asked for. -/
example : ([] : DerivationPath).length < (⟨2, [], [.normal 6#32]⟩ : ExtSecretKey 3).path.length := by decide

/-- A MAC whose left half is out of range exactly for messages ending in `0xFF 0xFF 0xFF`. -/
def edgeMac : Mac where
  run k msg :=
    (if (msg.drop (msg.length - 3)) = [0xFF#8, 0xFF#8, 0xFF#8] then List.replicate 32 0xFF#8
     else List.replicate 32 0#8) ++ List.replicate 32 7#8
  len k msg := by
    rw [List.length_append]
    split <;> simp

/-- C40: skipping past the last normal index 2147483647 is not refused: the key returned has the out of range normal index
2147483648, whose text is not a path (`C39_violation_next`) and whose derivation input is that of the hardened index 0. -/
theorem C40_violation_range (m : Mode) : ∃ c, toyKey.child toyCurve m edgeMac (.normal 2147483647#32) = .ok c ∧
    c.path = [.normal 2147483648#32] := by
  refine ⟨⟨2, (toyKey.mac toyCurve edgeMac (.normal 2147483648#32)).drop 32, [.normal 2147483648#32]⟩, ?_, rfl⟩
  unfold ExtSecretKey.child
  rw [show (2 : Nat) ^ 32 = (2 ^ 32 - 2) + 1 + 1 from rfl]
  generalize (2 : Nat) ^ 32 - 2 = fuel
  rw [childLoop_skip (j := .normal 2147483648#32) _ _ _ _ _ _ (by decide +kernel) (by cases m <;> decide +kernel),
    childLoop_take (il := 0) (by decide) _ _ _ _ _ _ (by decide +kernel) (by decide +kernel)]
  rfl

end Verif
