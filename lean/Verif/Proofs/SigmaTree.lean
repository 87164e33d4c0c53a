import Verif.Spec.SigmaProtocol
import Verif.Proofs.SigmaBoolean
import Verif.Proofs.GfSpec

set_option linter.unusedSimpArgs false
set_option linter.unusedVariables false

/-! Proof trees: serialization, parsing, verification. -/

namespace Verif.Sigma
open Verif Verif.Spec

/-! ### Challenges -/

theorem xor_val (a b : Challenge) : (a.xor b).1 = List.zipWith (fun x y => x ^^^ y) a.1 b.1 := rfl

theorem Challenge.ext {a b : Challenge} (h : a.1 = b.1) : a = b := Subtype.ext h

theorem zipWith_xor_comm (a b : Bytes) : List.zipWith (fun x y => x ^^^ y) a b = List.zipWith (fun x y => x ^^^ y) b a := by
  rw [List.zipWith_comm]
  congr 1
  funext x y; exact BitVec.xor_comm y x

theorem zipWith_xor_assoc : ∀ (a b c : Bytes), List.zipWith (fun x y => x ^^^ y) (List.zipWith (fun x y => x ^^^ y) a b) c =
    List.zipWith (fun x y => x ^^^ y) a (List.zipWith (fun x y => x ^^^ y) b c)
  | [], _, _ => by simp
  | _ :: _, [], _ => by simp
  | _ :: _, _ :: _, [] => by simp
  | x :: a, y :: b, z :: c => by simp [BitVec.xor_assoc, zipWith_xor_assoc a b c]

theorem zipWith_xor_self : ∀ (a : Bytes), List.zipWith (fun x y => x ^^^ y) a a = List.replicate a.length 0#8
  | [] => rfl
  | x :: a => by simp [zipWith_xor_self a, List.replicate_succ]

theorem zipWith_xor_zero : ∀ (a : Bytes), List.zipWith (fun x y => x ^^^ y) a (List.replicate a.length 0#8) = a
  | [] => rfl
  | x :: a => by simp [zipWith_xor_zero a, List.replicate_succ]

theorem xor_comm (a b : Challenge) : a.xor b = b.xor a := Challenge.ext (zipWith_xor_comm _ _)
theorem xor_assoc (a b c : Challenge) : (a.xor b).xor c = a.xor (b.xor c) := Challenge.ext (zipWith_xor_assoc _ _ _)
theorem xor_self (a : Challenge) : a.xor a = zeroChallenge :=
  Challenge.ext (by rw [xor_val, zipWith_xor_self, a.2]; rfl)
theorem xor_zero (a : Challenge) : a.xor zeroChallenge = a :=
  Challenge.ext (by
    have := zipWith_xor_zero a.1
    rw [a.2] at this; exact this)
theorem zero_xor (a : Challenge) : zeroChallenge.xor a = a := by rw [xor_comm, xor_zero]
theorem xor_xor_cancel (a b : Challenge) : (a.xor b).xor b = a := by rw [xor_assoc, xor_self, xor_zero]
theorem xor_eq_iff (a b c : Challenge) : a.xor b = c ↔ b = a.xor c := by
  constructor
  · rintro rfl; rw [← xor_assoc, xor_self, zero_xor]
  · rintro rfl; rw [← xor_assoc, xor_self, zero_xor]

theorem toGf_ofGf (a : Gf.Gf) : (Challenge.ofGf a).toGf = a := Gf.ofBytes24_toBytes a
theorem ofGf_toGf (e : Challenge) : Challenge.ofGf e.toGf = e := Challenge.ext (Gf.toBytes_ofBytes24 e.1 e.2)
theorem toGf_inj {a b : Challenge} (h : a.toGf = b.toGf) : a = b := by rw [← ofGf_toGf a, h, ofGf_toGf]

/-! ### Numbers -/

theorem beNat_append (a b : Bytes) : beNat (a ++ b) = beNat a * 256 ^ b.length + beNat b := by
  unfold beNat
  rw [List.foldl_append]
  generalize List.foldl (fun a b => 256 * a + b.toNat) 0 a = n
  induction b generalizing n with
  | nil => simp
  | cons x b ih =>
    simp only [List.foldl_cons, List.length_cons]
    rw [ih, ih (256 * 0 + x.toNat), pow_succ]; ring

theorem natBe_length : ∀ n v, (natBe n v).length = n
  | 0, _ => rfl
  | n + 1, v => by simp [natBe, natBe_length n]

theorem beNat_natBe : ∀ n v, v < 256 ^ n → beNat (natBe n v) = v
  | 0, v, h => by simp at h; subst h; rfl
  | n + 1, v, h => by
    rw [natBe, beNat_append, beNat_natBe n (v / 256) (by rw [pow_succ] at h; omega)]
    simp [beNat]; omega

theorem beNat_lt (bs : Bytes) : beNat bs < 256 ^ bs.length := by
  induction bs using List.reverseRecOn with
  | nil => decide
  | append_singleton a x ih =>
    rw [beNat_append]
    have := x.isLt
    have h1 : beNat [x] = x.toNat := by simp [beNat]
    simp only [List.length_append, List.length_cons, List.length_nil, h1, pow_succ]
    have h2 : beNat a + 1 ≤ 256 ^ a.length := ih
    omega

theorem natBe_beNat (bs : Bytes) : natBe bs.length (beNat bs) = bs := by
  induction bs using List.reverseRecOn with
  | nil => rfl
  | append_singleton a x ih =>
    have h1 : beNat [x] = x.toNat := by simp [beNat]
    have := x.isLt
    have h2 : (256 * beNat a + x.toNat) / 256 = beNat a := by omega
    rw [beNat_append, h1]
    simp only [List.length_append, List.length_cons, List.length_nil, natBe, pow_one, zero_add]
    rw [Nat.mul_comm (beNat a) 256, h2, ih]
    congr 2
    apply BitVec.eq_of_toNat_eq
    simp; omega

theorem natBe_inj {n a b : Nat} (ha : a < 256 ^ n) (hb : b < 256 ^ n) (h : natBe n a = natBe n b) : a = b := by
  rw [← beNat_natBe n a ha, h, beNat_natBe n b hb]

theorem scalarBytes_length {q : Nat} (z : ZMod q) : (scalarBytes z).length = 32 := natBe_length _ _

theorem scalar_roundtrip {q : Nat} [NeZero q] (hq : q ≤ 2 ^ 256) (z : ZMod q) : scalarOfBytes (scalarBytes z) = z := by
  unfold scalarOfBytes scalarBytes
  have := ZMod.val_lt z
  rw [beNat_natBe 32 _ (by have : (256 : Nat) ^ 32 = 2 ^ 256 := by norm_num
                           omega)]
  exact ZMod.natCast_zmod_val z

/-! ### Reading -/

theorem readChallenge_append (e : Challenge) (rest : Bytes) : readChallenge (e.1 ++ rest) = .ok (e, rest) := by
  unfold readChallenge
  have h : 24 ≤ (e.1 ++ rest).length := by simp [e.2]
  rw [dif_pos h]
  congr 1
  simp only [Prod.mk.injEq]
  refine ⟨Challenge.ext ?_, ?_⟩
  · show (e.1 ++ rest).take 24 = e.1
    rw [List.take_left' e.2]
  · rw [List.drop_left' e.2]

theorem theChallenge_write (e : Challenge) (wr : Bool) (s : Bytes) :
    theChallenge (if wr then none else some e) ((if wr then e.1 else []) ++ s) = .ok (e, s) := by
  cases wr
  · rfl
  · exact readChallenge_append e s

theorem readScalar_append {q : Nat} [NeZero q] (hq : q ≤ 2 ^ 256) (z : ZMod q) (rest : Bytes) :
    readScalar (scalarBytes z ++ rest) = .ok (z, rest) := by
  unfold readScalar
  rw [if_pos (by simp [scalarBytes_length]), List.take_left' (scalarBytes_length z), List.drop_left' (scalarBytes_length z),
    scalar_roundtrip hq]

theorem polyFromBytes_ok (e : Challenge) (n : Nat) (more : Bytes) (h : more.length = n * 24) :
    ∃ cs, polyFromBytes e more = .ok ⟨e.toGf :: cs, n⟩ ∧ cs.length = n ∧
      Gf.Poly.toBytes ⟨e.toGf :: cs, n⟩ = .ok more := by
  obtain ⟨cs, h1, h2, h3⟩ := Gf.toBytes_ofBytesLoop n more (by omega)
  refine ⟨cs, ?_, h2, ?_⟩
  · unfold polyFromBytes Gf.Poly.ofBytes
    rw [show more.length / 24 = n by omega]
    simp only [h1, Gf.ofBytes24_toBytes]; rfl
  · unfold Gf.Poly.toBytes
    rw [Gf.toBytesLoop_ok _ _ _ (by simp [h2]; omega)]
    simp [← h2, h3]

/-- A polynomial of the right size, its bytes, and reading them back. -/
theorem poly_io (e : Challenge) (poly : Gf.Poly) (n k : Nat) (hk : k ≤ n) (hd : poly.degree = n - k)
    (hl : poly.coefficients.length = n - k + 1) (h0 : poly.coefficients[0]? = some e.toGf) :
    ∃ bs, poly.toBytes = .ok bs ∧ bs.length = (n - k) * 24 ∧ polyFromBytes e bs = .ok poly := by
  obtain ⟨coeffs, deg⟩ := poly
  simp only at hd hl h0
  cases coeffs with
  | nil => simp at hl
  | cons c0 cs =>
    simp at h0 hl
    subst h0
    have hdd : deg = cs.length := by omega
    subst hdd
    obtain ⟨bs, h1, h2, h3⟩ := Gf.poly_roundtrip e.toGf cs
    refine ⟨bs, h1, by rw [h2, ← hd]; ring, ?_⟩
    unfold polyFromBytes
    rw [h3]

/-! ### Round trip -/

section
variable {G : Type} {q : Nat}

theorem consistentList_length : ∀ (as : List (SigmaBoolean G)) (ts : List (Unchecked G q)), ConsistentList as ts → as.length = ts.length
  | [], [], _ => rfl
  | _ :: as, _ :: ts, h => by simp [consistentList_length as ts h.2]
  | [], _ :: _, h => h.elim
  | _ :: _, [], h => h.elim

theorem clear_challenge (t : Unchecked G q) : (clearCommitments t).challenge = t.challenge := by
  cases t <;> rfl

/-- The statement proved by induction for one proposition. -/
def RT (sb : SigmaBoolean G) : Prop := ∀ (t : Unchecked G q), Consistent sb t → ∀ (wr : Bool),
  ∃ bs, sigWrite t wr = .ok bs ∧ ∀ rest,
    parseSig sb (if wr then none else some t.challenge) (bs ++ rest) = .ok (clearCommitments t, rest)

theorem rt_and : ∀ (items : List (SigmaBoolean G)) (_ : ∀ a ∈ items, RT (q := q) a) (cs : List (Unchecked G q)) (e : Challenge),
    (∀ c ∈ cs, c.challenge = e) → ConsistentList items cs → ∃ bs, sigWriteAll cs = .ok bs ∧ ∀ rest,
      parseAnd e items (bs ++ rest) = .ok (clearCommitmentsList cs, rest)
  | [], _, [], _, _, _ => ⟨[], rfl, fun rest => rfl⟩
  | a :: items, ih, t :: cs, e, he, hc => by
    obtain ⟨b, hb, hp⟩ := ih a (by simp) t hc.1 false
    obtain ⟨bs, hbs, hps⟩ := rt_and items (fun x hx => ih x (by simp [hx])) cs e (fun c h => he c (by simp [h])) hc.2
    refine ⟨b ++ bs, ?_, fun rest => ?_⟩
    · rw [sigWriteAll, hb, Outcome.bind_ok, hbs]; rfl
    · have hp' := hp (bs ++ rest)
      rw [if_neg (by decide), he t (by simp)] at hp'
      rw [parseAnd, List.append_assoc, hp', Outcome.bind_ok]
      simp only [hps, Outcome.bind_ok]; rfl
  | [], _, _ :: _, _, _, h => h.elim
  | _ :: _, _, [], _, _, h => h.elim

theorem rt_or : ∀ (items : List (SigmaBoolean G)) (_ : ∀ a ∈ items, RT (q := q) a) (_ : items ≠ []) (cs : List (Unchecked G q))
    (acc : Challenge), xorAll (cs.map Unchecked.challenge) = acc → ConsistentList items cs → ∃ bs, sigWriteOr cs = .ok bs ∧
      ∀ rest, parseOr acc items (bs ++ rest) = .ok (clearCommitmentsList cs, rest)
  | [], _, h, _, _, _, _ => absurd rfl h
  | [a], ih, _, [t], acc, hx, hc => by
    obtain ⟨b, hb, hp⟩ := ih a (by simp) t hc.1 false
    have hacc : t.challenge = acc := by
      simpa [xorAll, xor_zero] using hx
    refine ⟨b, by rw [sigWriteOr, hb], fun rest => ?_⟩
    have hp' := hp rest
    rw [if_neg (by decide), hacc] at hp'
    rw [parseOr, hp']; rfl
  | a :: b :: items, ih, _, t :: u :: cs, acc, hx, hc => by
    obtain ⟨bb, hb, hp⟩ := ih a (by simp) t hc.1 true
    obtain ⟨bs, hbs, hps⟩ := rt_or (b :: items) (fun x hx => ih x (by simp [hx])) (by simp) (u :: cs) (acc.xor t.challenge)
      (by
        subst hx
        show _ = (t.challenge.xor (xorAll ((u :: cs).map Unchecked.challenge))).xor t.challenge
        rw [xor_comm t.challenge, xor_xor_cancel]) hc.2
    refine ⟨bb ++ bs, ?_, fun rest => ?_⟩
    · rw [sigWriteOr, hb, Outcome.bind_ok, hbs]
      · rfl
      · simp
    · have hp' := hp (bs ++ rest)
      rw [if_pos rfl] at hp'
      rw [parseOr, List.append_assoc, hp', Outcome.bind_ok]
      · simp only [clear_challenge, hps, Outcome.bind_ok]; rfl
      · simp
  | [_], _, _, [], _, _, h => h.elim
  | [_], _, _, _ :: _ :: _, _, _, h => h.2.elim
  | _ :: _ :: _, _, _, [], _, _, h => h.elim
  | _ :: _ :: _, _, _, [_], _, _, h => h.2.elim

theorem rt_thr (poly : Gf.Poly) (hok : Gf.PolyOk poly) : ∀ (items : List (SigmaBoolean G)) (_ : ∀ a ∈ items, RT (q := q) a)
    (cs : List (Unchecked G q)) (idx : Nat),
    (∀ i c, cs[i]? = some c → c.challenge.toGf = gfEval poly.coefficients (gfByte (BitVec.ofNat 8 (idx + i + 1)))) →
    ConsistentList items cs → ∃ bs, sigWriteAll cs = .ok bs ∧ ∀ rest,
      parseThr poly idx items (bs ++ rest) = .ok (clearCommitmentsList cs, rest)
  | [], _, [], _, _, _ => ⟨[], rfl, fun rest => rfl⟩
  | a :: items, ih, t :: cs, idx, he, hc => by
    obtain ⟨b, hb, hp⟩ := ih a (by simp) t hc.1 false
    obtain ⟨bs, hbs, hps⟩ := rt_thr poly hok items (fun x hx => ih x (by simp [hx])) cs (idx + 1)
      (fun i c h => by
        have := he (i + 1) c (by simpa using h)
        rwa [show idx + (i + 1) + 1 = idx + 1 + i + 1 by omega] at this) hc.2
    refine ⟨b ++ bs, ?_, fun rest => ?_⟩
    · rw [sigWriteAll, hb, Outcome.bind_ok, hbs]; rfl
    · have hp' := hp (bs ++ rest)
      have h0 := he 0 t (by simp)
      rw [if_neg (by decide), ← ofGf_toGf t.challenge, h0] at hp'
      rw [parseThr, Gf.evaluate_eq hok, Outcome.bind_ok, List.append_assoc]
      simp only [Nat.add_zero] at hp'
      rw [hp', Outcome.bind_ok]
      simp only [hps, Outcome.bind_ok]; rfl
  | [], _, _ :: _, _, _, h => h.elim
  | _ :: _, _, [], _, _, h => h.elim

theorem clear_conj (kind : UKind) (e : Challenge) (cs : List (Unchecked G q)) :
    clearCommitments (.conj kind e cs) = .conj kind e (clearCommitmentsList cs) := rfl

theorem roundtrip [NeZero q] (hq : q ≤ 2 ^ 256) (sb : SigmaBoolean G) (hb : sb.Bounded) : RT (q := q) sb := by
  induction sb using SigmaBoolean.induct with
  | htriv b => intro t h; cases t <;> exact h.elim
  | hdlog h =>
    intro t hc wr
    cases t with
    | conj _ _ _ => exact hc.elim
    | leaf p m e z =>
      subst hc
      refine ⟨_, rfl, fun rest => ?_⟩
      rw [parseSig, List.append_assoc]
      show (theChallenge (if wr then none else some e) _ >>= _) = _
      rw [theChallenge_write, Outcome.bind_ok]
      simp only [readScalar_append hq, Outcome.bind_ok]; rfl
  | hdht g h u v =>
    intro t hc wr
    cases t with
    | conj _ _ _ => exact hc.elim
    | leaf p m e z =>
      subst hc
      refine ⟨_, rfl, fun rest => ?_⟩
      rw [parseSig, List.append_assoc]
      show (theChallenge (if wr then none else some e) _ >>= _) = _
      rw [theChallenge_write, Outcome.bind_ok]
      simp only [readScalar_append hq, Outcome.bind_ok]; rfl
  | hcand items ih =>
    intro t hc wr
    cases t with
    | leaf _ _ _ _ => exact hc.elim
    | conj kind e cs =>
      cases kind with
      | or => exact hc.elim
      | thr _ _ => exact hc.elim
      | and =>
        have hb' := (SigmaBoolean.boundedList_iff items).1 hb.2.2
        obtain ⟨bs, h1, h2⟩ := rt_and items (fun a ha => ih a ha (hb' a ha)) cs e hc.1 hc.2
        refine ⟨(if wr then e.1 else []) ++ bs, by rw [sigWrite, h1]; rfl, fun rest => ?_⟩
        rw [parseSig, List.append_assoc]
        show (theChallenge (if wr then none else some e) _ >>= _) = _
        rw [theChallenge_write, Outcome.bind_ok]
        simp only [h2, Outcome.bind_ok]; rfl
  | hcor items ih =>
    intro t hc wr
    cases t with
    | leaf _ _ _ _ => exact hc.elim
    | conj kind e cs =>
      cases kind with
      | and => exact hc.elim
      | thr _ _ => exact hc.elim
      | or =>
        have hb' := (SigmaBoolean.boundedList_iff items).1 hb.2.2
        have hne : items ≠ [] := by intro h; subst h; exact absurd hb.1 (by simp)
        obtain ⟨bs, h1, h2⟩ := rt_or items (fun a ha => ih a ha (hb' a ha)) hne cs e hc.1 hc.2
        refine ⟨(if wr then e.1 else []) ++ bs, by rw [sigWrite, h1]; rfl, fun rest => ?_⟩
        rw [parseSig, List.append_assoc]
        show (theChallenge (if wr then none else some e) _ >>= _) = _
        rw [theChallenge_write, Outcome.bind_ok]
        simp only [h2, Outcome.bind_ok]; rfl
  | hcth k items ih =>
    intro t hc wr
    cases t with
    | leaf _ _ _ _ => exact hc.elim
    | conj kind e cs =>
      cases kind with
      | and => exact hc.elim
      | or => exact hc.elim
      | thr k' poly =>
        obtain ⟨rfl, hk, hd, hl, h0, hev, hcl⟩ := hc
        have hb' := (SigmaBoolean.boundedList_iff items).1 hb.2.2
        have hok : Gf.PolyOk poly := Gf.polyOk_full hl hd
        obtain ⟨pb, p1, p2, p3⟩ := poly_io e poly items.length k'.toNat hk hd hl h0
        obtain ⟨bs, h1, h2⟩ := rt_thr poly hok items (fun a ha => ih a ha (hb' a ha)) cs 0 (by simpa using hev) hcl
        have hlen := consistentList_length items cs hcl
        refine ⟨(if wr then e.1 else []) ++ (pb ++ bs), ?_, fun rest => ?_⟩
        · have : polyBytesChecked cs.length k' poly = .ok pb := by
            unfold polyBytesChecked
            rw [p1, Outcome.bind_ok, if_neg (by omega), if_pos (by rw [p2, hlen])]
          rw [sigWrite, this, Outcome.bind_ok, h1]; rfl
        · have hrp : readPoly e items.length k' (pb ++ (bs ++ rest)) = .ok (poly, bs ++ rest) := by
            unfold readPoly
            rw [if_neg (by omega), if_pos (by simp [p2]), List.take_left' p2, p3, List.drop_left' p2]; rfl
          rw [parseSig, List.append_assoc, List.append_assoc]
          show (theChallenge (if wr then none else some e) _ >>= _) = _
          rw [theChallenge_write, Outcome.bind_ok]
          simp only [hrp, Outcome.bind_ok, h2]; rfl

end

end Verif.Sigma
