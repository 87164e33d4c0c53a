import Verif.Proofs.Wallet
import Verif.Props.Signing
import Verif.Props.ExtKey

set_option linter.unusedSimpArgs false
set_option linter.unusedVariables false

/-!
# C107 – the wallet and signed messages
-/

namespace Verif
open Verif.Sigma Verif.Spec

section
variable {G B T : Type} {q : Nat} [DecidableEq G] [AddCommGroup G] [Module (ZMod q) G]

/-- C107: for every key ever given to a wallet, whatever else it was given before or afterwards, every message can be signed
with the address of this key, and the signature is accepted. -/
theorem C107_signs [NeZero q] (hq : q ≤ 2 ^ 256) (C : Curve G) (hone : C.codec.one = 0) (rnd : Nat → Rnd q)
    (ss ts : List (Secret G q)) (w : ZMod q) (hw : .dlog w ∈ ss ∨ .dlog w ∈ ts) (msg : Bytes) :
    ∃ sig, (ts.foldl WalletP.addSecret (walletFromSecrets C rnd ss)).signP2pk (.p2pk (w • C.gen)) msg = .ok sig ∧
      verifyP2pk q C (.p2pk (w • C.gen)) msg sig = .ok true := by
  rw [addSecrets_eq]
  exact key_signs hq { curve := C, secrets := ss ++ ts, hints := [], rnd := rnd 0 } rfl hone w (List.mem_append.2 hw) msg

/-- C107: for an address without a key in the wallet there is no signature, and none for addresses that are not of one key;
such addresses are refused by the check as well. -/
theorem C107_refuses (P : WalletP G q) (hone : P.curve.codec.one = 0) (a : Address G) (msg : Bytes)
    (h : ∀ w, .dlog w ∈ P.secrets → a ≠ .p2pk (w • P.curve.gen)) :
    P.signP2pk a msg = .err ∧ ((∀ pk, a ≠ .p2pk pk) → ∀ sig, verifyP2pk q P.curve a msg sig = .err) := by
  cases a with
  | p2s b => exact ⟨rfl, fun _ _ => rfl⟩
  | p2sh b => exact ⟨rfl, fun _ _ => rfl⟩
  | p2pk pk =>
    refine ⟨?_, fun hn => absurd rfl (hn pk)⟩
    refine C21_refused { curve := P.curve, secrets := P.secrets, hints := [], rnd := P.rnd 0 } rfl hone (.dlog pk)
      (by simp [NoTrivial]) ?_ msg
    rw [holds]
    simp only [provableWith, List.any_eq_false]
    intro s hs
    cases s with
    | dlog w =>
      have := h w hs
      simp only [decide_eq_true_eq]
      intro e
      exact this (by rw [e])
    | dht => simp

/-- C107: adding secrets takes nothing away: what the wallet could prove it can still prove, and the signature is accepted.

Missing with respect to C107: all secrets of the Diffie–Hellman kind fit their tuples (`C107_bad_secret_violates`), and the
proposition is one of those of C21. -/
theorem C107_keeps_partial [NeZero q] (hq : q ≤ 2 ^ 256) (C : Curve G) (hone : C.codec.one = 0) (rnd : Nat → Rnd q)
    (ss ts : List (Secret G q)) (hs : SecretsOk ss) (ht : SecretsOk ts) (sb : SigmaBoolean G) (hnt : NoTrivial sb)
    (hb : sb.Bounded) (hthr : ThrOk sb) (hod : OrDistinct sb) (hk : holds (provableWith C.gen ss) sb = true) (msg : Bytes) :
    ∃ sig, (ts.foldl WalletP.addSecret (walletFromSecrets C rnd ss)).signMessage sb msg = .ok sig ∧
      verifySignature q C sb msg sig = .ok true := by
  rw [addSecrets_eq]
  have hm := provableWith_mono C.gen ss ts
  refine C21_accepted_partial hq { curve := C, secrets := ss ++ ts, hints := [], rnd := rnd 0 } rfl hone ?_ sb hnt hb hthr hod
    (holds_mono' _ _ hm.1 hm.2 sb hk) msg
  intro s h
  rcases List.mem_append.1 h with h | h
  · exact hs s h
  · exact ht s h

/-- C107: a signature is for one message: one that is accepted for two messages shows two inputs of the hash function, the
one the other with a different message at the end, with the same value. -/
theorem C107_bound (C : Curve G) (sb : SigmaBoolean G) (hnt : nontrivial sb) (m m' sig : Bytes)
    (h : verifySignature q C sb m sig = .ok true) (h' : verifySignature q C sb m' sig = .ok true) :
    m = m' ∨ ∃ s, s ++ m ≠ s ++ m' ∧ fsHash C.hash (s ++ m) = fsHash C.hash (s ++ m') := by
  by_cases e : m = m'
  · exact .inl e
  · obtain ⟨s, hs⟩ := accepted_twice C sb hnt m m' sig h h'
    exact .inr ⟨s, fun h => e (List.append_cancel_left h), hs⟩

/-- C107: the wallet of a mnemonic phrase signs for the address of the master key of the seed of BIP-39; the wallet
depends on the normalized phrase and password only. -/
theorem C107_mnemonic [NeZero q] (hq : q ≤ 2 ^ 256) (C : Curve G) (hone : C.codec.one = 0) (rnd : Nat → Rnd q) (H : Mac)
    (F : SeedFns) (phrase pass : List Char) (P : WalletP G q) (h : walletFromMnemonic C rnd H F phrase pass = .ok P) :
    (∃ k : ExtSecretKey q, ExtSecretKey.deriveMaster H (F.pbkdf2 (F.nfkd phrase)
        ("mnemonic".toList.map (fun c => BitVec.ofNat 8 c.toNat) ++ F.nfkd pass) 2048) = .ok k ∧
      P.secrets = [.dlog k.secret] ∧
      ∀ msg, ∃ sig, P.signP2pk (.p2pk (publicImage C k.secret)) msg = .ok sig ∧
        verifyP2pk q C (.p2pk (publicImage C k.secret)) msg sig = .ok true) ∧
    ∀ phrase' pass', F.nfkd phrase' = F.nfkd phrase → F.nfkd pass' = F.nfkd pass →
      walletFromMnemonic C rnd H F phrase' pass' = .ok P := by
  constructor
  · unfold walletFromMnemonic at h
    obtain ⟨k, h1, h2⟩ := Outcome.bind_eq_ok.1 h
    rw [Outcome.pure_eq, Outcome.ok.injEq] at h2
    refine ⟨k, h1, by rw [← h2]; rfl, fun msg => ?_⟩
    have he : publicImage C k.secret = k.secret • C.gen := by
      unfold publicImage
      exact expo_eq C hone C.gen k.secret
    rw [he, ← h2]
    exact C107_signs hq C hone rnd [.dlog k.secret] [] k.secret (.inl (by simp)) msg
  · intro phrase' pass' e1 e2
    rw [← h]
    unfold walletFromMnemonic toSeed
    rw [e1, e2]

/-- Finding for C107: nothing tells a signed message from a spending proof.  Who gets a message signed that is the bytes to
sign of a transaction can put the signature into any input of it that this key can spend, and the input is accepted. -/
theorem C107_message_spends (P : WalletP G q) (reduce : Reduce G B T) (E : Sers G B T) (S : StateCtx G) (c : TxBoxes G B T)
    (t : Tx G B T) (i : Nat) (inp : Input G B) (sb : SigmaBoolean G) (ext : Extension G B) (hnt : nontrivial sb)
    (msg sig : Bytes) (hsig : P.signMessage sb msg = .ok sig)
    (hv : verifySignature q P.curve sb msg sig = .ok true)
    (hm : t.bytesToSign E = .ok msg) (hi : t.inputs[i]? = some inp) (hp : inp.proof.proof = .some sig)
    (hr : inputProp reduce S t.spend c i inp.boxId = .ok (sb, ext)) :
    verifyInput q P.curve reduce E S t c i = .ok true := by
  unfold verifyInput
  rw [hi, hm, Outcome.bind_eq_ok]
  refine ⟨inp, rfl, ?_⟩
  rw [Outcome.bind_ok, hr, Outcome.bind_ok, hp]
  rw [verify_nontrivial P.curve sb hnt] at hv
  split at hv
  · cases hv
  · cases sb with
    | trivial b => exact hnt.elim
    | _ => exact hv

end

/-- Finding for C107: a Diffie–Hellman secret that does not fit its tuple is taken into the wallet, and used instead of the
right one given later: the signature is not accepted. -/
theorem C107_bad_secret_violates : ∃ (ss ts : List (Secret (ZMod 3) 3)) (sb : SigmaBoolean (ZMod 3)) (msg sig : Bytes),
    SecretsOk ts ∧ holds (provableWith toyCurve.gen ts) sb = true ∧
    (ts.foldl WalletP.addSecret (walletFromSecrets toyCurve (fun _ => toyRnd) ss)).signMessage sb msg = .ok sig ∧
    verifySignature 3 toyCurve sb msg sig = .ok false := by
  refine ⟨[.dht 1 1 2 2 1], [.dht 2 1 2 2 1], .dht 1 2 2 1, [7],
    (match (walletFromSecrets toyCurve (fun _ => toyRnd) [.dht 1 1 2 2 1, .dht 2 1 2 2 1]).signMessage (.dht 1 2 2 1) [7] with
      | .ok s => s | _ => []), ?_, by decide +kernel, by decide +kernel, by decide +kernel⟩
  intro s hs
  simp only [List.mem_singleton] at hs
  subst hs
  show (2 : ZMod 3) = 2 • (1 : ZMod 3) ∧ (1 : ZMod 3) = (2 : ZMod 3) • (2 : ZMod 3)
  decide

/-! ## Cases -/

/-- A wallet with a secret of each kind, to which a key is added. -/
def wlWallet : WalletP (ZMod 3) 3 :=
  [Secret.dlog (1 : ZMod 3)].foldl WalletP.addSecret (walletFromSecrets toyCurve (fun _ => toyRnd) toyProver.secrets)

/-- It signs with the added key, the signature is accepted for this message, not for another. -/
example : (wlWallet.signP2pk (.p2pk 1) [7, 7] >>= fun s => verifyP2pk 3 toyCurve (.p2pk 1) [7, 7] s) = .ok true ∧
    (wlWallet.signP2pk (.p2pk 1) [7, 7] >>= fun s => verifyP2pk 3 toyCurve (.p2pk 1) [7, 8] s) = .ok false ∧
    wlWallet.signP2pk (.p2pk 0) [7, 7] = .err ∧ wlWallet.signP2pk (.p2s [0]) [7, 7] = .err := by
  decide +kernel

/-- The hypotheses of `C107_keeps_partial`, for the toy proposition. -/
example : SecretsOk toyProver.secrets ∧ SecretsOk [Secret.dlog (1 : ZMod 3) (G := ZMod 3)] ∧
    holds (provableWith toyCurve.gen toyProver.secrets) toyProp = true := by
  refine ⟨?_, ?_, by decide +kernel⟩
  · intro s hs
    simp only [toyProver, List.mem_cons, List.not_mem_nil, or_false] at hs
    rcases hs with rfl | rfl
    · trivial
    · show (2 : ZMod 3) = 2 • (1 : ZMod 3) ∧ (1 : ZMod 3) = (2 : ZMod 3) • (2 : ZMod 3)
      decide
  · intro s hs
    simp only [List.mem_singleton] at hs
    subst hs
    trivial

/-- A signature of the bytes to sign of a transaction, made with `sign_message`, put into its first input. -/
def wlSpend : Outcome Bool := do
  let u ← sgTx 5
  let c ← TxBoxes.new (u.spend sgSers) (sgBoxes 8) [sgBox 3 8]
  let m ← u.bytesToSign sgSers
  let sig ← sgWallet.signMessage toyProp m
  let t ← Tx.new sgSers [⟨tid 9, ⟨.some sig, [(0, intConst 5)]⟩⟩, ⟨tid 8, ⟨.empty, []⟩⟩] (some [tid 3]) sgCands
  verifyInput 3 toyCurve sgReduce sgSers sgState t c 0

/-- The run of `C107_message_spends`. -/
example : wlSpend = .ok true := by decide +kernel

/-- Toy functions for seeds; accents are dropped by the normalization. -/
def wlSeedFns : SeedFns where
  nfkd cs := (cs.filter (fun c => c.toNat < 128)).map fun c => BitVec.ofNat 8 c.toNat
  pbkdf2 p s n := (p ++ s).map fun b => b + BitVec.ofNat 8 n

/-- The hypotheses of `C107_mnemonic`. -/
example : ∃ P, walletFromMnemonic toyCurve (fun _ => toyRnd) toyMac wlSeedFns ['a', 'b'] ['e'] = .ok P ∧
    P.secrets = [Secret.dlog (1 : ZMod 3)] ∧ wlSeedFns.nfkd ['a', 'b'] = wlSeedFns.nfkd ['a', 'é', 'b'] :=
  ⟨_, rfl, congrArg (fun x => [Secret.dlog x]) (by decide +kernel), by decide +kernel⟩

end Verif
