import Verif.Model.ExtKey
import Verif.Proofs.SigmaTree

set_option linter.unusedVariables false
set_option linter.unusedSimpArgs false

namespace Verif
open Verif.Sigma

section
variable {G : Type} [DecidableEq G] {q : Nat} [AddCommGroup G] [Module (ZMod q) G]

theorem publicImage_eq (C : Curve G) (hone : C.codec.one = 0) (w : ZMod q) : publicImage C w = w • C.gen := by
  unfold publicImage expo
  split
  · rename_i h; rw [h, hone, smul_zero]
  · rfl

theorem publicImage_add (C : Curve G) (hone : C.codec.one = 0) (a b : ZMod q) :
    publicImage C (a + b) = publicImage C a + publicImage C b := by
  rw [publicImage_eq C hone, publicImage_eq C hone, publicImage_eq C hone, add_smul]

/-- The extended public key with the same chain code and path. -/
def ExtSecretKey.pub (C : Curve G) (k : ExtSecretKey q) : ExtPubKey G := ⟨publicImage C k.secret, k.chainCode, k.path⟩

theorem publicKey_eq (C : Curve G) (k : ExtSecretKey q) : k.publicKey C = .ok (k.pub C) := by
  unfold ExtSecretKey.publicKey ExtPubKey.new ExtSecretKey.publicBytes
  have := getPoint_putPoint C.codec (publicImage C k.secret) []
  rw [List.append_nil] at this
  rw [this]
  rfl

theorem keyOfBytes_scalarBytes [NeZero q] (hq : q ≤ 2 ^ 256) (z : ZMod q) : keyOfBytes (scalarBytes z) = some z := by
  have hv := ZMod.val_lt z
  have h : Sigma.beNat (scalarBytes z) = z.val := beNat_natBe 32 _ (by
    have : (256 : Nat) ^ 32 = 2 ^ 256 := by decide
    rw [this]; omega)
  unfold keyOfBytes
  rw [h, if_pos hv, ZMod.natCast_zmod_val]

theorem new_scalarBytes [NeZero q] (hq : q ≤ 2 ^ 256) (z : ZMod q) (c : Bytes) (p : DerivationPath) :
    ExtSecretKey.new (scalarBytes z) c p = .ok ⟨z, c, p⟩ := by
  unfold ExtSecretKey.new
  rw [keyOfBytes_scalarBytes hq]

theorem mac_normal (C : Curve G) (H : Mac) (k : ExtSecretKey q) (i : BitVec 32) :
    k.mac C H (.normal i) = (k.pub C).mac C H i := rfl

theorem publicImage_eq_one [Fact q.Prime] (C : Curve G) (hone : C.codec.one = 0) (hgen : C.gen ≠ 0) (w : ZMod q) :
    publicImage C w = C.codec.one ↔ w = 0 := by
  rw [publicImage_eq C hone, hone]
  constructor
  · intro h
    by_contra hw
    apply hgen
    have : w⁻¹ • w • C.gen = 0 := by rw [h, smul_zero]
    rwa [smul_smul, inv_mul_cancel₀ hw, one_smul] at this
  · rintro rfl; exact zero_smul _ _

theorem childLoop_commute [Fact q.Prime] (hq : q ≤ 2 ^ 256) (C : Curve G) (hone : C.codec.one = 0) (hgen : C.gen ≠ 0) (m : Mode)
    (H : Mac) (k : ExtSecretKey q) (fuel : Nat) (i : BitVec 32) :
    (k.childLoop C m H fuel (.normal i) >>= fun c => c.publicKey C) = (k.pub C).childLoop q C m H fuel i := by
  haveI : NeZero q := ⟨(Fact.out : q.Prime).ne_zero⟩
  induction fuel generalizing i with
  | zero => rfl
  | succ fuel ih =>
    have hnext : (((ChildIndex.normal i).next m >>= fun next => k.childLoop C m H fuel next) >>= fun c => c.publicKey C) =
        (incU32 m i >>= fun next => (k.pub C).childLoop q C m H fuel next) := by
      show (((incU32 m i >>= fun j => Outcome.ok (ChildIndex.normal j)) >>= fun next => k.childLoop C m H fuel next) >>= _) = _
      cases incU32 m i with
      | ok j => exact ih j
      | err => rfl
      | panic => rfl
    rw [ExtSecretKey.childLoop, ExtPubKey.childLoop]
    simp only [mac_normal]
    cases hk : keyOfBytes (q := q) (((k.pub C).mac C H i).take 32) with
    | none => exact hnext
    | some il =>
      simp only
      have hpub : publicImage C il + (k.pub C).point = publicImage C (il + k.secret) := (publicImage_add C hone _ _).symm
      rw [hpub]
      by_cases hz : il + k.secret = 0
      · rw [if_pos hz, if_pos ((publicImage_eq_one C hone hgen _).2 hz)]
        exact hnext
      · rw [if_neg hz, if_neg (fun h => hz ((publicImage_eq_one C hone hgen _).1 h)), new_scalarBytes hq]
        exact publicKey_eq C _

theorem childLoop_skip {j : ChildIndex} (C : Curve G) (m : Mode) (H : Mac) (k : ExtSecretKey q) (fuel : Nat) (i : ChildIndex)
    (h : keyOfBytes (q := q) ((k.mac C H i).take 32) = none) (hn : i.next m = .ok j) :
    k.childLoop C m H (fuel + 1) i = k.childLoop C m H fuel j := by
  rw [ExtSecretKey.childLoop]
  simp only [h, hn]
  rfl

theorem childLoop_take [NeZero q] {il : ZMod q} (hq : q ≤ 2 ^ 256) (C : Curve G) (m : Mode) (H : Mac) (k : ExtSecretKey q)
    (fuel : Nat) (i : ChildIndex) (h : keyOfBytes (q := q) ((k.mac C H i).take 32) = some il) (hz : il + k.secret ≠ 0) :
    k.childLoop C m H (fuel + 1) i = .ok ⟨il + k.secret, (k.mac C H i).drop 32, k.path ++ [i]⟩ := by
  rw [ExtSecretKey.childLoop]
  simp only [h]
  rw [if_neg hz, new_scalarBytes hq]

theorem childLoop_mono (C : Curve G) (m : Mode) (H : Mac) (k c : ExtSecretKey q) (fuel : Nat) (i : ChildIndex)
    (h : k.childLoop C m H fuel i = .ok c) : k.childLoop C m H (fuel + 1) i = .ok c := by
  induction fuel generalizing i with
  | zero => cases h
  | succ fuel ih =>
    rw [ExtSecretKey.childLoop] at h ⊢
    simp only at h ⊢
    split at h
    · split at h
      · rename_i hz
        obtain ⟨j, hj, h⟩ := Outcome.bind_eq_ok.1 h
        rw [if_pos hz]
        exact Outcome.bind_eq_ok.2 ⟨j, hj, ih j h⟩
      · rename_i hz
        rw [if_neg hz]; exact h
    · obtain ⟨j, hj, h⟩ := Outcome.bind_eq_ok.1 h
      exact Outcome.bind_eq_ok.2 ⟨j, hj, ih j h⟩

theorem tryFold_append {α β : Type} (f : α → β → Outcome α) (a : α) (l r : List β) :
    tryFold f a (l ++ r) = (tryFold f a l >>= fun a' => tryFold f a' r) := by
  induction l generalizing a with
  | nil => rfl
  | cons b bs ih =>
    show (f a b >>= fun a' => tryFold f a' (bs ++ r)) = ((f a b >>= fun a' => tryFold f a' bs) >>= _)
    cases f a b with
    | ok a' => exact ih a'
    | err => rfl
    | panic => rfl

/-- What `child` returns is a child with some index of the same kind. -/
theorem childLoop_path (C : Curve G) (m : Mode) (H : Mac) (k c : ExtSecretKey q) (fuel : Nat) (i : ChildIndex)
    (h : k.childLoop C m H fuel i = .ok c) : ∃ j, c.path = k.path ++ [j] := by
  induction fuel generalizing i with
  | zero => cases h
  | succ fuel ih =>
    rw [ExtSecretKey.childLoop] at h
    simp only at h
    split at h
    · split at h
      · obtain ⟨j, _, h⟩ := Outcome.bind_eq_ok.1 h
        exact ih j h
      · unfold ExtSecretKey.new at h
        split at h
        · cases h
        · cases h; exact ⟨i, rfl⟩
    · obtain ⟨j, _, h⟩ := Outcome.bind_eq_ok.1 h
      exact ih j h

theorem prefix_self (p r : DerivationPath) : (((p ++ r).take p.length).zip p).all (fun ab => decide (ab.1 = ab.2)) = true := by
  rw [List.take_left]
  rw [List.all_eq_true]
  intro ab hab
  rw [List.zip_eq_zipWith] at hab
  induction p with
  | nil => simp at hab
  | cons i is ih =>
    simp only [List.zipWith_cons_cons, List.mem_cons] at hab
    rcases hab with rfl | hab
    · simp
    · exact ih hab

theorem prefix_iff (u p : DerivationPath) (hl : p.length ≤ u.length) :
    ((u.take p.length).zip p).all (fun ab => decide (ab.1 = ab.2)) = true ↔ p <+: u := by
  induction p generalizing u with
  | nil => simp
  | cons i is ih =>
    cases u with
    | nil => simp at hl
    | cons j js =>
      simp only [List.length_cons, List.take_succ_cons, List.zip_cons_cons, List.all_cons, Bool.and_eq_true, decide_eq_true_eq]
      rw [ih js (by simpa using hl), List.cons_prefix_cons]
      constructor
      · rintro ⟨rfl, h⟩; exact ⟨rfl, h⟩
      · rintro ⟨rfl, h⟩; exact ⟨rfl, h⟩

theorem secret_derive_append (C : Curve G) (m : Mode) (H : Mac) (k : ExtSecretKey q) (r : DerivationPath) :
    k.derive C m H (k.path ++ r) = tryFold (fun parent i => parent.child C m H i) k r := by
  unfold ExtSecretKey.derive
  rw [if_neg (by rw [List.length_append]; omega), if_pos (prefix_self _ _), List.drop_left]

theorem secret_derive_ok {C : Curve G} {m : Mode} {H : Mac} {k c : ExtSecretKey q} {u : DerivationPath}
    (h : k.derive C m H u = .ok c) : ∃ r, u = k.path ++ r ∧ tryFold (fun parent i => parent.child C m H i) k r = .ok c := by
  unfold ExtSecretKey.derive at h
  split at h
  · cases h
  · rename_i hl
    split at h
    · rename_i hp
      obtain ⟨r, rfl⟩ := (prefix_iff u k.path (by omega)).1 hp
      rw [List.drop_left] at h
      exact ⟨r, rfl, h⟩
    · cases h

theorem tryFold_path (C : Curve G) (m : Mode) (H : Mac) (r : DerivationPath) (k c : ExtSecretKey q)
    (h : tryFold (fun parent i => parent.child C m H i) k r = .ok c) : ∃ r', r'.length = r.length ∧ c.path = k.path ++ r' := by
  induction r generalizing k with
  | nil => cases h; exact ⟨[], rfl, by simp⟩
  | cons i is ih =>
    obtain ⟨k1, h1, h2⟩ := Outcome.bind_eq_ok.1 h
    obtain ⟨j, hj⟩ := childLoop_path C m H k k1 _ i h1
    obtain ⟨r', hl, hr⟩ := ih k1 h2
    exact ⟨j :: r', by simp [hl], by rw [hr, hj]; simp⟩

theorem tryFold_commute [Fact q.Prime] (hq : q ≤ 2 ^ 256) (C : Curve G) (hone : C.codec.one = 0) (hgen : C.gen ≠ 0) (m : Mode)
    (H : Mac) (is : List (BitVec 32)) (k : ExtSecretKey q) :
    (tryFold (fun parent i => parent.child C m H i) k (is.map ChildIndex.normal) >>= fun c => c.publicKey C) =
      tryFold (fun (parent : ExtPubKey G) i => match i with
        | .hardened _ => .err
        | .normal j => parent.child q C m H j) (k.pub C) (is.map ChildIndex.normal) := by
  induction is generalizing k with
  | nil => exact publicKey_eq C k
  | cons i is ih =>
    have h := childLoop_commute hq C hone hgen m H k (2 ^ 32) i
    show ((k.child C m H (.normal i) >>= fun k' => tryFold _ k' (is.map ChildIndex.normal)) >>= _) =
      ((k.pub C).child q C m H i >>= fun k' => tryFold _ k' (is.map ChildIndex.normal))
    unfold ExtSecretKey.child ExtPubKey.child
    rw [← h]
    cases k.childLoop C m H (2 ^ 32) (.normal i) with
    | ok c =>
      rw [Outcome.bind_ok, Outcome.bind_ok, publicKey_eq, Outcome.bind_ok]
      exact ih c
    | err => rfl
    | panic => rfl

theorem be4_eq (b : BitVec 32) : be4 b = Sigma.natBe 4 b.toNat := by
  have : ∀ s, b.extractLsb' s 8 = BitVec.ofNat 8 (b.toNat / 2 ^ s) := by
    intro s
    apply BitVec.eq_of_toNat_eq
    rw [BitVec.extractLsb'_toNat, BitVec.toNat_ofNat, Nat.shiftRight_eq_div_pow]
  unfold be4
  rw [this, this, this, this]
  simp only [Sigma.natBe, List.nil_append, List.cons_append]
  simp only [Nat.div_div_eq_div_mul]
  norm_num

end

end Verif
