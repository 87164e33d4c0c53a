import Verif.Proofs.Address
import Verif.Props.ErgoTree

set_option linter.unusedVariables false

/-! # C41: addresses; C61: their scripts -/

namespace Verif
open Verif.Address
variable {G B T : Type} [DecidableEq G]

/-! ## C41 -/

/-- C41 (partial): the text of an address for a network is parsed, by that network's encoder and by the network-reading parser,
to the address and the network.  Missing: the empty pay-to-script address (`C41_violation_empty`). -/
theorem C41_roundtrip_partial (S : Base58) (pc : PointCodec G) (H : HashFn) (n : Network) (a : Address G) (ha : a ≠ .p2s []) :
    ofText S pc H n (toText S pc H n a) = some a ∧ networkOfText S pc H (toText S pc H n a) = some (n, a) := by
  have hu := parseUnchecked_framed pc H (n.byte + a.typeByte) (a.contentBytes pc) (contentBytes_ne_nil pc ha)
  rw [classify_encode] at hu
  have hc : 0 < (a.contentBytes pc).length := List.length_pos_iff.2 (contentBytes_ne_nil pc ha)
  have hl : ¬(encode pc H n a).length < 6 := by
    unfold encode
    rw [List.length_append, checksum_length, List.length_cons]
    omega
  have hh : (encode pc H n a).headD 0 = n.byte + a.typeByte := rfl
  obtain ⟨h1, h2⟩ := head_nibbles n a
  constructor
  · unfold ofText toText
    rw [S.dec_enc, Option.bind_eq_bind, Option.bind_some]
    unfold parseFor
    rw [if_neg hl, hh, if_pos h2]
    exact hu
  · unfold networkOfText toText
    rw [S.dec_enc, Option.bind_eq_bind, Option.bind_some]
    unfold parseNetwork
    rw [if_neg hl, hh, h1]
    show (parseUnchecked pc H (encode pc H n a)).bind _ = _
    rw [show parseUnchecked pc H (encode pc H n a) = some a from hu]
    rfl

/-- `String`s of bytes as a stand-in for Base58. -/
def toyBase58 : Base58 where
  enc b := String.ofList (b.map fun x => Char.ofNat x.toNat)
  dec s := some (s.toList.map fun c => BitVec.ofNat 8 c.toNat)
  dec_enc b := by
    have : ∀ x : Byte, BitVec.ofNat 8 (Char.ofNat x.toNat).toNat = x := by decide
    rw [String.toList_ofList, List.map_map]
    congr 1
    rw [show (fun c : Char => BitVec.ofNat 8 c.toNat) ∘ (fun x : Byte => Char.ofNat x.toNat) = id from funext this, List.map_id]

example : (Address.p2pk 1 : Address (Fin 3)) ≠ .p2s [] := by decide
example : (Address.encode toyCodec sumHash .testnet (.p2s [1, 2, 3])).take 4 = [19, 1, 2, 3] := by decide +kernel

/-- C41: the encoder of the other network refuses the text. -/
theorem C41_network (S : Base58) (pc : PointCodec G) (H : HashFn) (n n' : Network) (hn : n' ≠ n) (a : Address G) :
    ofText S pc H n' (toText S pc H n a) = none := by
  unfold ofText toText
  rw [S.dec_enc, Option.bind_eq_bind, Option.bind_some]
  unfold parseFor
  split
  · rfl
  · rw [if_neg]
    rw [show (encode pc H n a).headD 0 = n.byte + a.typeByte from rfl]
    cases n <;> cases n' <;> first | exact absurd rfl hn | (cases a <;> simp [headOk, Network.byte, typeByte])

example : Network.testnet ≠ .mainnet := by decide

/-- C41: different addresses, or networks, have different bytes (and so different texts). -/
theorem C41_injective_partial (pc : PointCodec G) (H : HashFn) (n n' : Network) (a a' : Address G) (ha : a ≠ .p2s [])
    (ha' : a' ≠ .p2s []) (h : encode pc H n a = encode pc H n' a') : n = n' ∧ a = a' := by
  have S := toyBase58
  have h1 := (C41_roundtrip_partial S pc H n a ha).2
  have h2 := (C41_roundtrip_partial S pc H n' a' ha').2
  unfold toText at h1 h2
  rw [h, h2] at h1
  cases h1
  exact ⟨rfl, rfl⟩

/-- C41: whatever is accepted carries the right checksum of the rest. -/
theorem C41_checksum (pc : PointCodec G) (H : HashFn) (bytes : Bytes) (a : Address G) (h : parseUnchecked pc H bytes = some a) :
    ∃ body, bytes = body ++ (H body).take 4 := by
  obtain ⟨hd, c, _, hb, _⟩ := parseUnchecked_some h
  exact ⟨hd :: c, hb⟩

/-- C41, accepted bytes re-encode to themselves (partial): for pay-to-script and pay-to-script-hash addresses read together with
their network.  Missing: public key addresses, whose trailing bytes are not looked at (`C41_violation_trailing`), and the parser
that is given the network (`C41_violation_head`). -/
theorem C41_canonical_partial (pc : PointCodec G) (H : HashFn) (bytes : Bytes) (n : Network) (a : Address G)
    (h : parseNetwork pc H bytes = some (n, a)) (hk : ∀ g, a ≠ .p2pk g) : encode pc H n a = bytes := by
  unfold parseNetwork at h
  split at h
  · cases h
  cases hn : Network.ofByte (bytes.headD 0 &&& 0xF0) with
  | none => rw [hn] at h; cases h
  | some n' =>
    rw [hn] at h
    cases hu : parseUnchecked pc H bytes with
    | none => rw [hu] at h; cases h
    | some a' =>
      rw [hu] at h
      cases h
      obtain ⟨hd, c, hne, rfl, hcl⟩ := parseUnchecked_some hu
      rw [show ((hd :: c) ++ checksum H (hd :: c)).headD 0 = hd from rfl] at hn
      have key : ∀ (hd : Byte), ∀ n, Network.ofByte (hd &&& 0xF0) = some n → hd = n.byte + (hd &&& 0xF) := by decide +kernel
      have hhd := key hd n hn
      unfold classify at hcl
      split at hcl
      · obtain ⟨x, _, rfl⟩ := Option.map_eq_some_iff.1 hcl
        exact absurd rfl (hk _)
      · split at hcl
        · rename_i h2
          split at hcl
          · cases hcl
            unfold encode
            simp only [typeByte, contentBytes]
            rw [hhd, h2]
          · cases hcl
        · split at hcl
          · rename_i h3
            cases hcl
            unfold encode
            simp only [typeByte, contentBytes]
            rw [hhd, h3]
          · cases hcl

example : parseNetwork toyCodec sumHash (Address.encode toyCodec sumHash .testnet (.p2s [1, 2, 3])) =
    some (.testnet, .p2s [1, 2, 3]) := by decide +kernel

/-- C41 fails for the empty pay-to-script address: every parser refuses its text. -/
theorem C41_violation_empty (S : Base58) (pc : PointCodec G) (H : HashFn) (n m : Network) :
    ofText S pc H m (toText S pc H n (.p2s [])) = none ∧ networkOfText S pc H (toText S pc H n (.p2s [])) = none := by
  have hl : (encode pc H n (.p2s [] : Address G)).length < 6 := by
    unfold encode
    rw [List.length_append, checksum_length]
    simp [contentBytes]
  constructor
  · unfold ofText toText
    rw [S.dec_enc, Option.bind_eq_bind, Option.bind_some]
    exact if_pos hl
  · unfold networkOfText toText
    rw [S.dec_enc, Option.bind_eq_bind, Option.bind_some]
    exact if_pos hl

/-- C41 fails for public key addresses: any bytes may follow the key, so that one address has arbitrarily many accepted texts. -/
theorem C41_violation_trailing (pc : PointCodec G) (H : HashFn) (n : Network) (g : G) (extra : Bytes) :
    let body := (n.byte + 1) :: (putPoint pc g ++ extra)
    parseNetwork pc H (body ++ checksum H body) = some (n, .p2pk g) ∧ parseFor pc H n (body ++ checksum H body) = some (.p2pk g) := by
  intro body
  have hl : (putPoint pc g ++ extra).length = 33 + extra.length := by rw [List.length_append, putPoint_length]
  have hu := parseUnchecked_framed pc H (n.byte + 1) (putPoint pc g ++ extra) (by
    intro h; rw [h] at hl; simp at hl; omega)
  have hc : classify pc (n.byte + 1) (putPoint pc g ++ extra) = some (.p2pk g) := by
    unfold classify
    rw [if_pos (by cases n <;> decide), getPoint_putPoint]
    rfl
  rw [hc] at hu
  have hlen : ¬(body ++ checksum H body).length < 6 := by
    rw [List.length_append, checksum_length, List.length_cons, hl]
    omega
  have hh : (body ++ checksum H body).headD 0 = n.byte + 1 := rfl
  constructor
  · unfold parseNetwork
    rw [if_neg hlen, hh, show Network.ofByte ((n.byte + 1) &&& 0xF0) = some n by cases n <;> decide]
    show (parseUnchecked pc H (body ++ checksum H body)).bind _ = _
    rw [hu]
    rfl
  · unfold parseFor
    rw [if_neg hlen, hh, if_pos (by cases n <;> decide)]
    exact hu

/-- C41 fails for the parser of a test network encoder: head bytes of no network (here `0xF3`) are accepted; the network-reading
parser refuses them. -/
theorem C41_violation_head (pc : PointCodec G) (H : HashFn) (script : Bytes) (hne : script ≠ []) :
    let body := 0xF3#8 :: script
    parseFor pc H .testnet (body ++ checksum H body) = some (.p2s script) ∧
    parseNetwork pc H (body ++ checksum H body) = none ∧
    encode pc H .testnet (.p2s script : Address G) ≠ body ++ checksum H body := by
  intro body
  have hc : 0 < script.length := List.length_pos_iff.2 hne
  have hu := parseUnchecked_framed pc H 0xF3#8 script hne
  have hlen : ¬(body ++ checksum H body).length < 6 := by
    rw [List.length_append, checksum_length, List.length_cons]
    omega
  have hh : (body ++ checksum H body).headD 0 = 0xF3#8 := rfl
  refine ⟨?_, ?_, ?_⟩
  · unfold parseFor
    rw [if_neg hlen, hh, if_pos (by decide), hu]
    rfl
  · unfold parseNetwork
    rw [if_neg hlen, hh, show Network.ofByte (0xF3#8 &&& 0xF0) = none by decide]
    rfl
  · intro h
    have h2 : (19 : Byte) = 0xF3#8 := (List.cons.inj h).1
    exact absurd h2 (by decide)

example : ([7, 7] : Bytes) ≠ [] := by decide

end Verif
