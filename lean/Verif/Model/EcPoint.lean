import Verif.Model.Base

/-!
# Group elements and their encoding

Source: `ergo-chain-types/src/ec_point.rs`.  The secp256k1 arithmetic and the SEC1 point compression come from the
`k256` crate and are not modelled: a group element is a value of an abstract type `G`, and the crate's compressed
encoding is the parameter `PointCodec`, with the three facts used about it as fields.
-/

namespace Verif

/-- What is assumed of `to_encoded_point(true)` and `PublicKey::from_sec1_bytes` of the `k256` crate for points other
than the identity: a 33 byte encoding with a non-zero first byte that is decoded to the same point, used at
`ergo-chain-types/src/ec_point.rs:127, 136`. -/
structure PointCodec (G : Type) where
  /-- `ProjectivePoint::IDENTITY` -/
  one : G
  /-- `caff.to_encoded_point(true).as_bytes()` -/
  sec1 : G → Bytes
  /-- `PublicKey::from_sec1_bytes(..).to_projective()` -/
  unsec1 : Bytes → Option G
  sec1_length : ∀ g, g ≠ one → (sec1 g).length = 33
  sec1_head : ∀ g, g ≠ one → (sec1 g).head? ≠ some 0#8
  unsec1_sec1 : ∀ g, g ≠ one → unsec1 (sec1 g) = some g

/-- `EcPoint::scorex_serialize`, `ergo-chain-types/src/ec_point.rs:120-130`. -/
def putPoint {G : Type} [DecidableEq G] (pc : PointCodec G) (g : G) : Bytes :=
  if g = pc.one then List.replicate 33 0#8 else pc.sec1 g

/-- `EcPoint::scorex_parse`, `ergo-chain-types/src/ec_point.rs:132-144`. -/
def getPoint {G : Type} (pc : PointCodec G) : Parser G := do
  let buf ← readExact 33
  match buf with
  | [] => Parser.fail
  | b0 :: _ => if b0 ≠ 0#8 then Parser.ofOption (pc.unsec1 buf) else pure pc.one

theorem putPoint_length {G : Type} [DecidableEq G] (pc : PointCodec G) (g : G) : (putPoint pc g).length = 33 := by
  unfold putPoint
  split
  · simp
  · exact pc.sec1_length g ‹_›

theorem getPoint_putPoint {G : Type} [DecidableEq G] (pc : PointCodec G) (g : G) (rest : Bytes) :
    getPoint pc (putPoint pc g ++ rest) = some (g, rest) := by
  unfold getPoint
  rw [Parser.bind_some (readExact_append' _ _ (putPoint_length pc g))]
  unfold putPoint
  split
  · subst g; rfl
  · rename_i hg
    have h1 := pc.sec1_length g hg
    have h2 := pc.sec1_head g hg
    have h3 := pc.unsec1_sec1 g hg
    generalize pc.sec1 g = e at h1 h2 h3
    cases e with
    | nil => simp at h1
    | cons b t =>
      simp only [List.head?_cons, ne_eq, Option.some.injEq] at h2
      simp [h2, h3]

/-- A tiny instance of the assumptions (three points), used to show that hypotheses can be met, for
`ergo-chain-types/src/ec_point.rs:122-144`. -/
def toyCodec : PointCodec (Fin 3) where
  one := 0
  sec1 g := 2#8 :: List.replicate 31 0#8 ++ [BitVec.ofNat 8 g.val]
  unsec1 bs := if h : (bs.getLastD 0).toNat < 3 then some ⟨(bs.getLastD 0).toNat, h⟩ else none
  sec1_length := by decide
  sec1_head := by decide
  unsec1_sec1 := by decide

end Verif
