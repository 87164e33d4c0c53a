import Verif.Proofs.JointSignRun
import Verif.Props.MultiSig

set_option linter.unusedSimpArgs false
set_option linter.unusedVariables false

/-!
# C92: signing together while others are absent
-/

namespace Verif
open Verif.Sigma Verif.Spec

section
variable {G : Type} {q : Nat} [DecidableEq G] [AddCommGroup G] [Module (ZMod q) G]

/-- C92 (the part that holds; for any group of parties whose secrets suffice it is false: `C92_too_many_violates`,
`C92_nested_violates`, `C92_same_key_violates`).  Let the parties that sign be just enough for the proposition — exactly one child of
every OR and exactly `k` children of every `k`-threshold in the part they prove, the children they leave out being single statements —
let every key be held by one of them only, and the statements nobody present can prove be pairwise different.  Everybody makes
commitments for their keys and announces the public part; then they sign one after the other, each with the hints extracted from the
previous signature for the keys that have signed and the keys that are absent.  For every shape and size of the proposition, every order
of the hints in the bags, every randomness of every party and every message, nobody fails and the last signature verifies. -/
theorem C92_session_partial [NeZero q] (hq : q ≤ 2 ^ 256) (C : Curve G) (hone : C.codec.one = 0) (sb : SigmaBoolean G) (hb : sb.Bounded)
    (ss : List (Signer G q)) (hne : ss ≠ []) (hj : JustEnough (ownedBy C ss) sb)
    (hone_owner : ∀ s ∈ ss, ∀ t ∈ ss, ∀ x ∈ leaves sb, x.1.toSB ∈ s.images C → x.1.toSB ∈ t.images C → s = t)
    (hok : ∀ s ∈ ss, SecretsOk s.secrets) (absent : List (SigmaBoolean G))
    (habs : ∀ x ∈ leaves sb, x.1.toSB ∈ absent ↔ ¬ ∃ s ∈ ss, x.1.toSB ∈ s.images C)
    (hdist : ∀ x ∈ leaves sb, ∀ y ∈ leaves sb, x.1.toSB ∈ absent → x.1 = y.1 → x = y)
    (arrange : List (Hint G q) → List (Hint G q)) (harr : ∀ l, (arrange l).Perm l) (message : Bytes) :
    ∃ sig, signPresent C arrange sb absent message (announced C sb ss) [] [] ss = .ok sig ∧ verifySignature q C sb message sig = .ok true := by
  obtain ⟨s, rest, rfl⟩ : ∃ s rest, ss = s :: rest := by
    cases ss with
    | nil => exact absurd rfl hne
    | cons s rest => exact ⟨s, rest, rfl⟩
  let S0 : Session G q := ⟨C, sb, s :: rest, absent, s.rnd.challenge, s.rnd.simZ, fsHash C.hash []⟩
  obtain ⟨bs, hbs⟩ := fsj_total (σ := S0.own) (simE := S0.simE) (cm := S0.cm) C.codec (fun _ => (0 : ZMod q)) (fsHash C.hash []) sb cryptoTreePrefix
  let S : Session G q := ⟨C, sb, s :: rest, absent, s.rnd.challenge, s.rnd.simZ, fsHash C.hash (bs ++ message)⟩
  have hS : S.Ok := ⟨hone, hb, hj, hone_owner, hok, habs, hdist⟩
  have hbs' : fsUnchecked C.codec (UJ S.own S.simE (gm S.cm (fun _ => (0 : ZMod q))) S.e sb cryptoTreePrefix) = .ok bs :=
    (fsj_indep _ _ _ _ _ _ _ hj).trans hbs
  refine Session.session_je (S := S) hS hq arrange (fun l h => (harr l).mem_iff) message bs hbs' rfl (s :: rest) [] [] ?_ ?_ (by simp)
    (fun _ h => h) (fun x hx hr => .inr ((ownedBy_iff _ _ _).1 hr))
  · intro t r h
    injection h with h1 h2
    subst h1
    exact .inl ⟨rfl, rfl, rfl, rfl⟩
  · intro x _ h; cases h

/-- Someone with a single secret. -/
def soleSigner (w : ZMod q) (nonce : Position → ZMod q) (rnd : Rnd q) : Signer G q := ⟨[.dlog w], nonce, rnd⟩

omit [DecidableEq G] [AddCommGroup G] [Module (ZMod q) G] in
theorem holdsCount_keys (σ : Assignment G) : ∀ keys : List G, holdsCount σ (keys.map .dlog) = (keys.filter σ.dlog).length
  | [] => rfl
  | k :: keys => by
    rw [List.map_cons, holdsCount, holdsCount_keys σ keys, List.filter_cons]
    have : holds σ (.dlog k) = σ.dlog k := rfl
    rw [this]
    cases σ.dlog k <;> simp; omega

theorem leavesAtList_keys : ∀ (keys : List G) (pos : Position) (i : Nat), ∀ x ∈ leavesAtList (keys.map .dlog) pos i,
    ∃ n k, keys[n]? = some k ∧ x = (.dlog k, pos ++ [i + n])
  | [], _, _, x, hx => by cases hx
  | k :: keys, pos, i, x, hx => by
    rw [List.map_cons, leavesAtList, leavesAt] at hx
    rcases List.mem_append.1 hx with hx | hx
    · exact ⟨0, k, rfl, by simpa using hx⟩
    · obtain ⟨n, k', h1, h2⟩ := leavesAtList_keys keys pos (i + 1) x hx
      exact ⟨n + 1, k', by simpa using h1, by rw [h2, show i + 1 + n = i + (n + 1) by omega]⟩

/-- C92, the common case: of `n` different public keys, the holders of any `k` sign together for "`k` of `n`", whatever the order of the
keys in the proposition and of the signers, and whatever they draw; the signature verifies. -/
theorem C92_k_of_n [NeZero q] (hq : q ≤ 2 ^ 256) (C : Curve G) (hone : C.codec.one = 0) (keys : List G) (h2 : 2 ≤ keys.length)
    (h255 : keys.length ≤ 255) (hkeys : keys.Nodup) (who : List (ZMod q × (Position → ZMod q) × Rnd q)) (hne : who ≠ [])
    (hwho : (who.map fun t => t.1 • C.gen).Nodup) (hin : ∀ t ∈ who, t.1 • C.gen ∈ keys)
    (arrange : List (Hint G q) → List (Hint G q)) (harr : ∀ l, (arrange l).Perm l) (message : Bytes) :
    let sb : SigmaBoolean G := .cth (BitVec.ofNat 8 who.length) (keys.map .dlog)
    let ss := who.map fun t => soleSigner t.1 t.2.1 t.2.2
    let absent := (keys.filter fun k => decide (k ∉ who.map fun t => t.1 • C.gen)).map SigmaBoolean.dlog
    ∃ sig, signPresent C arrange sb absent message (announced C sb ss) [] [] ss = .ok sig ∧ verifySignature q C sb message sig = .ok true := by
  intro sb ss absent
  have himg : ∀ t : ZMod q × (Position → ZMod q) × Rnd q, (soleSigner t.1 t.2.1 t.2.2 : Signer G q).images C = [.dlog (t.1 • C.gen)] := by
    intro t
    show [SigmaBoolean.dlog (expo C C.gen t.1)] = _
    rw [expo_eq C hone]
  have hsub : (who.map fun t => t.1 • C.gen) ⊆ keys := by
    intro k hk
    obtain ⟨t, ht, rfl⟩ := List.mem_map.1 hk
    exact hin t ht
  have hlen : who.length ≤ keys.length := by
    have := (List.subperm_of_subset hwho hsub).length_le
    simpa using this
  have hk8 : (BitVec.ofNat 8 who.length).toNat = who.length := by
    rw [BitVec.toNat_ofNat, Nat.mod_eq_of_lt (by omega)]
  have hown : ∀ k : G, (∃ s ∈ ss, SigmaBoolean.dlog k ∈ s.images C) ↔ k ∈ who.map fun t => t.1 • C.gen := by
    intro k
    constructor
    · rintro ⟨s, hs, hk⟩
      obtain ⟨t, ht, rfl⟩ := List.mem_map.1 hs
      rw [himg, List.mem_singleton] at hk
      injection hk with hk
      exact List.mem_map.2 ⟨t, ht, hk.symm⟩
    · intro hk
      obtain ⟨t, ht, rfl⟩ := List.mem_map.1 hk
      exact ⟨_, List.mem_map.2 ⟨t, ht, rfl⟩, by rw [himg]; exact List.mem_singleton.2 rfl⟩
  have hσ : ∀ k : G, (ownedBy C ss).dlog k = decide (k ∈ who.map fun t => t.1 • C.gen) := by
    intro k
    rw [Bool.eq_iff_iff, decide_eq_true_iff, ← hown k]
    exact ownedBy_iff C ss (.dlog k)
  have hleaf : ∀ x ∈ leaves sb, ∃ n k, keys[n]? = some k ∧ x = (.dlog k, cryptoTreePrefix ++ [0 + n]) := leavesAtList_keys keys cryptoTreePrefix 0
  have habs : ∀ k : G, k ∈ keys → (SigmaBoolean.dlog k ∈ absent ↔ k ∉ who.map fun t => t.1 • C.gen) := by
    intro k hk
    constructor
    · intro h
      obtain ⟨k', h1, h2⟩ := List.mem_map.1 h
      injection h2 with h2
      subst h2
      exact of_decide_eq_true (List.mem_filter.1 h1).2
    · intro h
      exact List.mem_map.2 ⟨k, List.mem_filter.2 ⟨hk, decide_eq_true h⟩, rfl⟩
  refine C92_session_partial hq C hone sb ⟨by simpa using h2, by simpa using h255, ?_⟩ ss (by simpa [ss] using hne) ⟨?_, ?_⟩ ?_ ?_ absent ?_ ?_
    arrange harr message
  · rw [boundedList_iff]
    intro a ha
    obtain ⟨k, _, rfl⟩ := List.mem_map.1 ha
    trivial
  · rw [holdsCount_keys, hk8]
    have hp : (keys.filter (ownedBy C ss).dlog).Perm (who.map fun t => t.1 • C.gen) := by
      rw [List.perm_ext_iff_of_nodup (hkeys.filter _) hwho]
      intro k
      rw [List.mem_filter, hσ, decide_eq_true_iff]
      exact ⟨fun h => h.2, fun h => ⟨hsub h, h⟩⟩
    rw [hp.length_eq, List.length_map]
  · rw [justEnoughList_iff]
    refine ⟨fun a ha _ => ?_, fun a ha hh => ?_⟩
    · obtain ⟨k, _, rfl⟩ := List.mem_map.1 ha
      exact ⟨.dlog k, rfl⟩
    · obtain ⟨k, _, rfl⟩ := List.mem_map.1 ha
      exact hh
  · intro s hs t ht x hx hx1 hx2
    obtain ⟨a, ha, rfl⟩ := List.mem_map.1 hs
    obtain ⟨b, hb, rfl⟩ := List.mem_map.1 ht
    obtain ⟨n, k, hn, rfl⟩ := hleaf x hx
    rw [himg, List.mem_singleton] at hx1 hx2
    simp only [LeafProp.toSB, SigmaBoolean.dlog.injEq] at hx1 hx2
    have : a = b := List.inj_on_of_nodup_map hwho ha hb (hx1.symm.trans hx2)
    rw [this]
  · intro s hs
    obtain ⟨a, ha, rfl⟩ := List.mem_map.1 hs
    intro t ht
    rw [show (soleSigner a.1 a.2.1 a.2.2 : Signer G q).secrets = [.dlog a.1] from rfl, List.mem_singleton] at ht
    subst ht
    trivial
  · intro x hx
    obtain ⟨n, k, hn, rfl⟩ := hleaf x hx
    show SigmaBoolean.dlog k ∈ absent ↔ ¬ ∃ s ∈ ss, SigmaBoolean.dlog k ∈ s.images C
    rw [habs k (List.mem_of_getElem? hn), hown]
  · intro x hx y hy _ hxy
    obtain ⟨n, k, hn, rfl⟩ := hleaf x hx
    obtain ⟨m, k', hm, rfl⟩ := hleaf y hy
    simp only [LeafProp.dlog.injEq] at hxy
    subst hxy
    have : n = m := by
      have h1 := (List.getElem?_eq_some_iff.1 hn)
      have h2 := (List.getElem?_eq_some_iff.1 hm)
      obtain ⟨a1, a2⟩ := h1
      obtain ⟨b1, b2⟩ := h2
      exact (List.Nodup.getElem_inj_iff hkeys).1 (a2.trans b2.symm)
    rw [this]

end

/-- Other "randomness" than `toyRnd`. -/
def toyRnd' : Rnd 3 where
  challenge p := ⟨BitVec.ofNat 8 (p.length * 2) :: List.replicate 23 (BitVec.ofNat 8 (17 + p.foldl (· * 3 + ·) 1)), by simp⟩
  bytes _ i := BitVec.ofNat 8 i
  simZ p := (p.length : Nat)
  realR _ := 1
  fallbackZ _ := 2

/-- The holder of the key 1. -/
def toySigner1 : Signer (ZMod 3) 3 := ⟨[.dlog 1], fun p => (p.length : Nat), toyRnd⟩
/-- The holder of the key 0 and of a Diffie-Hellman tuple. -/
def toySigner2 : Signer (ZMod 3) 3 := ⟨[.dht 2 1 2 2 1, .dlog 0], fun p => (p.foldl (· + ·) 1 : Nat), toyRnd'⟩
/-- The holder of the key 2. -/
def toySigner3 : Signer (ZMod 3) 3 := ⟨[.dlog 2], fun _ => 2, toyRnd'⟩

/-- A session of toy signers, and what the verifier says to the last signature. -/
def toyTogether (sb : SigmaBoolean (ZMod 3)) (absent : List (SigmaBoolean (ZMod 3))) (ss : List (Signer (ZMod 3) 3)) : Outcome Bool := do
  let sig ← signPresent toyCurve List.reverse sb absent [7, 7] (announced toyCurve sb ss) [] [] ss
  verifySignature 3 toyCurve sb [7, 7] sig

/-- Two of three keys, and something more. -/
def toyShared : SigmaBoolean (ZMod 3) := .cand [.cth 2 [.dlog 1, .dht 0 1 1 2, .cor [.dlog 2, .dlog 0]], .dht 1 2 2 1]

/-- Non-trivial case of the hypotheses of C92. -/
example : toyShared.Bounded ∧ JustEnough (ownedBy toyCurve [toySigner1, toySigner2]) toyShared ∧
    (∀ s ∈ [toySigner1, toySigner2], ∀ t ∈ [toySigner1, toySigner2], ∀ x ∈ leaves toyShared, x.1.toSB ∈ s.images toyCurve →
      x.1.toSB ∈ t.images toyCurve → s = t) ∧ (∀ s ∈ [toySigner1, toySigner2], SecretsOk s.secrets) ∧
    (∀ x ∈ leaves toyShared, x.1.toSB ∈ [SigmaBoolean.dlog 2, .dht 0 1 1 2] ↔ ¬ ∃ s ∈ [toySigner1, toySigner2], x.1.toSB ∈ s.images toyCurve) ∧
    (∀ x ∈ leaves toyShared, ∀ y ∈ leaves toyShared, x.1.toSB ∈ [SigmaBoolean.dlog 2, .dht 0 1 1 2] → x.1 = y.1 → x = y) := by
  have i1 : toySigner1.images toyCurve = [.dlog 1] := by with_unfolding_all rfl
  have i2 : toySigner2.images toyCurve = [.dht 1 2 2 1, .dlog 0] := by with_unfolding_all rfl
  have hl : leaves toyShared = [(.dlog 1, [0, 0, 0]), (.dht 0 1 1 2, [0, 0, 1]), (.dlog 2, [0, 0, 2, 0]), (.dlog 0, [0, 0, 2, 1]), (.dht 1 2 2 1, [0, 1])] := by
    simp [leaves, toyShared, leavesAt, leavesAtList, cryptoTreePrefix]
  have o1 : (ownedBy toyCurve [toySigner1, toySigner2]).dlog 1 = true := by decide +kernel
  have o0 : (ownedBy toyCurve [toySigner1, toySigner2]).dlog 0 = true := by decide +kernel
  have o2 : (ownedBy toyCurve [toySigner1, toySigner2]).dlog 2 = false := by decide +kernel
  have d1 : (ownedBy toyCurve [toySigner1, toySigner2]).dht 1 2 2 1 = true := by decide +kernel
  have d2 : (ownedBy toyCurve [toySigner1, toySigner2]).dht 0 1 1 2 = false := by decide +kernel
  refine ⟨by simp [toyShared, SigmaBoolean.Bounded, SigmaBoolean.BoundedList], ?_, ?_, ?_, ?_, ?_⟩
  · simp only [toyShared, JustEnough, JustEnoughList, holdsCount, holds, o1, o0, o2, d1, d2]
    have T : True := trivial
    refine ⟨by decide, .inl ⟨by decide, by decide, .inl ⟨T, T⟩, .inr ⟨T, .dht 0 1 1 2, rfl⟩,
      .inl ⟨by decide, by decide, .inr ⟨T, .dlog 2, rfl⟩, .inl ⟨T, T⟩, T⟩, T⟩, .inl ⟨T, T⟩, T⟩
  · intro s hs t ht x hx h1 h2
    rw [hl] at hx
    simp only [List.mem_cons, List.not_mem_nil, or_false] at hs ht hx
    rcases hs with rfl | rfl <;> rcases ht with rfl | rfl <;> try rfl
    all_goals
      simp only [i1, i2] at h1 h2
      rcases hx with rfl | rfl | rfl | rfl | rfl <;> simp [LeafProp.toSB] at h1 h2
      all_goals first | exact absurd h1 (by decide) | exact absurd h2 (by decide)
  · intro s hs
    simp only [List.mem_cons, List.not_mem_nil, or_false] at hs
    rcases hs with rfl | rfl
    · intro t ht; simp only [toySigner1, List.mem_singleton] at ht; subst ht; trivial
    · intro t ht
      simp only [toySigner2, List.mem_cons, List.not_mem_nil, or_false] at ht
      rcases ht with rfl | rfl
      · show (2 : ZMod 3) = 2 • (1 : ZMod 3) ∧ (1 : ZMod 3) = (2 : ZMod 3) • (2 : ZMod 3)
        decide
      · trivial
  · intro x hx
    rw [hl] at hx
    simp only [List.mem_cons, List.not_mem_nil, or_false] at hx
    simp only [List.mem_cons, List.not_mem_nil, or_false, exists_eq_or_imp, exists_eq_left, i1, i2]
    rcases hx with rfl | rfl | rfl | rfl | rfl <;> simp [LeafProp.toSB] <;> decide
  · intro x hx y hy ha hxy
    rw [hl] at hx hy
    simp only [List.mem_cons, List.not_mem_nil, or_false] at hx hy
    rcases hx with rfl | rfl | rfl | rfl | rfl <;> rcases hy with rfl | rfl | rfl | rfl | rfl <;> first
      | rfl
      | (exfalso; revert hxy; simp; done)
      | (exfalso; revert hxy; simp; decide)

/-- A run of it. -/
example : toyTogether toyShared [.dlog 2, .dht 0 1 1 2] [toySigner1, toySigner2] = .ok true := by decide +kernel

/-- A non-trivial case of `C92_k_of_n`: two of three. -/
example : (2 ≤ [(1 : ZMod 3), 0, 2].length) ∧ [(1 : ZMod 3), 0, 2].Nodup ∧
    (([((1 : ZMod 3), (fun _ => (0 : ZMod 3) : Position → ZMod 3), toyRnd), (2, fun _ => 1, toyRnd')]).map fun t => t.1 • toyCurve.gen).Nodup ∧
    ∀ t ∈ [((1 : ZMod 3), (fun _ => (0 : ZMod 3) : Position → ZMod 3), toyRnd), (2, fun _ => 1, toyRnd')], t.1 • toyCurve.gen ∈ [(1 : ZMod 3), 0, 2] := by
  refine ⟨by decide, by decide, by decide +kernel, ?_⟩
  intro t ht
  simp only [List.mem_cons, List.not_mem_nil, or_false] at ht
  rcases ht with rfl | rfl <;> decide +kernel

/-- C92 fails with more signers than needed: three of three parties want to sign "two of three" together, and one of them gets an
error. -/
theorem C92_too_many_violates :
    holds (ownedBy toyCurve [toySigner1, toySigner2, toySigner3]) (.cth 2 [.dlog 1, .dlog 0, .dlog 2]) = true ∧
    (signPresent toyCurve List.reverse (.cth 2 [.dlog 1, .dlog 0, .dlog 2]) [] [7, 7]
      (announced toyCurve (.cth 2 [.dlog 1, .dlog 0, .dlog 2]) [toySigner1, toySigner2, toySigner3]) [] []
      [toySigner1, toySigner2, toySigner3] = .err) ∧
    toyTogether (.cth 2 [.dlog 1, .dlog 0, .dlog 2]) [.dlog 2] [toySigner1, toySigner2] = .ok true := by
  refine ⟨?_, ?_, ?_⟩ <;> decide +kernel

/-- C92 fails when a whole subtree is left out: two parties sign "both of us, or those two others together", nobody fails, and the
last signature does not verify. -/
theorem C92_nested_violates :
    holds (ownedBy toyCurve [toySigner1, toySigner2]) (.cor [.cand [.dlog 1, .dlog 0], .cand [.dlog 2, .dht 1 1 1 1]]) = true ∧
    toyTogether (.cor [.cand [.dlog 1, .dlog 0], .cand [.dlog 2, .dht 1 1 1 1]]) [.dlog 2, .dht 1 1 1 1] [toySigner1, toySigner2] = .ok false := by
  constructor <;> decide +kernel

/-- C92 fails when an absent key occurs twice: two parties sign "two of four" with such a key, nobody fails, and the last signature does
not verify. -/
theorem C92_same_key_violates :
    holds (ownedBy toyCurve [toySigner1, toySigner2]) (.cth 2 [.dlog 1, .dlog 0, .dlog 2, .dlog 2]) = true ∧
    toyTogether (.cth 2 [.dlog 1, .dlog 0, .dlog 2, .dlog 2]) [.dlog 2] [toySigner1, toySigner2] = .ok false := by
  constructor <;> decide +kernel

end Verif
