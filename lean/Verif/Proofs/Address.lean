import Verif.Model.Address

set_option linter.unusedVariables false
set_option linter.unusedSimpArgs false

namespace Verif
namespace Address
variable {G B T : Type}

theorem checksum_length (H : HashFn) (b : Bytes) : (checksum H b).length = 4 := by
  unfold checksum
  rw [List.length_take, H.len]
  rfl

/-- Head byte, content, checksum: what the parser does with them. -/
def classify (pc : PointCodec G) (head : Byte) (content : Bytes) : Option (Address G) :=
  if head &&& 0xF = 1 then (getPoint pc content).map fun x => p2pk x.1
  else if head &&& 0xF = 2 then if h : content.length = 24 then some (p2sh ⟨content, h⟩) else none
  else if head &&& 0xF = 3 then some (p2s content)
  else none

theorem parseUnchecked_framed (pc : PointCodec G) (H : HashFn) (head : Byte) (content : Bytes) (hne : content ≠ []) :
    parseUnchecked pc H ((head :: content) ++ checksum H (head :: content)) = classify pc head content := by
  have hl : (head :: content ++ checksum H (head :: content)).length = content.length + 5 := by
    rw [List.length_append, checksum_length, List.length_cons]
  have hc : 0 < content.length := List.length_pos_iff.2 hne
  unfold parseUnchecked
  rw [if_neg (by rw [hl]; omega)]
  simp only
  rw [show (head :: content ++ checksum H (head :: content)).length - 4 = (head :: content).length by rw [hl]; rfl,
    List.take_left, List.drop_left, if_neg (by simp)]
  rfl

theorem parseUnchecked_some {pc : PointCodec G} {H : HashFn} {bytes : Bytes} {a : Address G}
    (h : parseUnchecked pc H bytes = some a) :
    ∃ head content, content ≠ [] ∧ bytes = (head :: content) ++ checksum H (head :: content) ∧ classify pc head content = some a := by
  unfold parseUnchecked at h
  split at h
  · cases h
  rename_i hlen
  simp only at h
  split at h
  · cases h
  rename_i hsum
  have hsum : List.drop (bytes.length - 4) bytes = checksum H (List.take (bytes.length - 4) bytes) := by
    by_cases hc : List.drop (bytes.length - 4) bytes = checksum H (List.take (bytes.length - 4) bytes)
    · exact hc
    · exact absurd hc hsum
  have hsplit := List.take_append_drop (bytes.length - 4) bytes
  rw [hsum] at hsplit
  have htl : (List.take (bytes.length - 4) bytes).length = bytes.length - 4 := by rw [List.length_take]; omega
  split at h
  · cases h
  · rename_i head content hb
    rw [hb] at hsplit htl
    refine ⟨head, content, ?_, hsplit.symm, h⟩
    rintro rfl
    simp at htl
    omega

theorem classify_encode [DecidableEq G] (pc : PointCodec G) (n : Network) (a : Address G) :
    classify pc (n.byte + a.typeByte) (a.contentBytes pc) = some a := by
  cases a with
  | p2pk h =>
    have hp := getPoint_putPoint pc h []
    rw [List.append_nil] at hp
    cases n <;> simp [classify, typeByte, Network.byte, contentBytes, hp]
  | p2s b => cases n <;> simp [classify, typeByte, Network.byte, contentBytes]
  | p2sh h => cases n <;> simp [classify, typeByte, Network.byte, contentBytes, h.2]

theorem contentBytes_ne_nil [DecidableEq G] (pc : PointCodec G) {a : Address G} (h : a ≠ p2s []) : a.contentBytes pc ≠ [] := by
  cases a with
  | p2pk g =>
    intro hc
    have := putPoint_length pc g
    rw [show putPoint pc g = [] from hc] at this
    cases this
  | p2s b => intro hc; exact h (by rw [show b = [] from hc])
  | p2sh g =>
    intro hc
    have := g.2
    rw [show g.1 = [] from hc] at this
    cases this

theorem head_nibbles (n : Network) (a : Address G) :
    Network.ofByte ((n.byte + a.typeByte) &&& 0xF0) = some n ∧ headOk n (n.byte + a.typeByte) = true := by
  cases a <;> cases n <;> simp [typeByte, Network.byte, Network.ofByte, headOk]

end Address
end Verif
