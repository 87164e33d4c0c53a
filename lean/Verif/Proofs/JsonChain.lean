import Verif.Spec.JsonChain
import Verif.Proofs.JsonHint
import Verif.Proofs.JsonTx
import Verif.Proofs.DerivationPath

set_option linter.unusedSimpArgs false
set_option linter.unusedVariables false

/-!
# JSON of headers, Merkle proofs, NiPoPoW proofs and blocks
-/

namespace Verif
open Spec Json Merkle

/-! ## Numbers of any size -/

theorem bigDigits_iff : ∀ (s : Text) (acc n : Nat), bigDigits acc s = some n ↔
    (∀ c ∈ s, c ≠ '_' → 48 ≤ c.toNat ∧ c.toNat ≤ 57) ∧
      n = (s.filter (· ≠ '_')).foldl (fun a c => 10 * a + (c.toNat - 48)) acc
  | [], acc, n => by simp [bigDigits, eq_comm]
  | c :: cs, acc, n => by
    rw [bigDigits]
    by_cases hc : c = '_'
    · rw [if_pos hc, bigDigits_iff cs acc n]
      subst hc
      simp
    · rw [if_neg hc]
      unfold digitVal
      by_cases hd : 48 ≤ c.toNat ∧ c.toNat ≤ 57
      · rw [if_pos hd]
        simp only []
        rw [bigDigits_iff cs _ n, List.filter_cons_of_pos (by simpa using hc), List.foldl_cons]
        constructor
        · rintro ⟨h1, h2⟩
          refine ⟨?_, h2⟩
          intro x hx hne
          rcases List.mem_cons.1 hx with rfl | hx
          · exact hd
          · exact h1 x hx hne
        · rintro ⟨h1, h2⟩
          exact ⟨fun x hx => h1 x (List.mem_cons_of_mem _ hx), h2⟩
      · rw [if_neg hd]
        simp only [reduceCtorEq, false_iff]
        rintro ⟨h1, _⟩
        exact hd (h1 c (List.mem_cons_self ..) hc)

theorem bigUnsigned_iff (s : Text) (n : Nat) : bigUnsigned s = some n ↔ SpellsNat s n := by
  unfold bigUnsigned SpellsNat
  cases s with
  | nil => simp
  | cons c cs =>
    simp only [List.head?_cons, ne_eq, Option.some.injEq, reduceCtorEq, not_false_eq_true, true_and]
    by_cases hc : c = '_'
    · simp [hc]
    · rw [if_neg hc, bigDigits_iff]
      simp only [hc, not_false_eq_true, true_and]
      rfl

theorem spellsNat_head {s : Text} {n : Nat} (h : SpellsNat s n) : ∃ c cs, s = c :: cs ∧ 48 ≤ c.toNat ∧ c.toNat ≤ 57 := by
  obtain ⟨h1, h2, h3, _⟩ := h
  cases s with
  | nil => exact absurd rfl h2
  | cons c cs =>
    refine ⟨c, cs, rfl, h3 c (List.mem_cons_self ..) ?_⟩
    rintro rfl
    exact h1 rfl

theorem bigUint_iff (s : Text) (n : Nat) : bigUint s = some n ↔ SpellsNat s n ∨ ∃ d, s = '+' :: d ∧ SpellsNat d n := by
  unfold bigUint
  cases s with
  | nil => simp [SpellsNat]
  | cons c cs =>
    simp only []
    by_cases hc : c = '+' ∧ cs.head? ≠ some '+'
    · rw [if_pos hc, bigUnsigned_iff]
      constructor
      · intro h
        exact Or.inr ⟨cs, by rw [hc.1], h⟩
      · rintro (h | ⟨d, h1, h2⟩)
        · obtain ⟨c', cs', h3, h4, h5⟩ := spellsNat_head h
          cases h3
          rw [hc.1] at h4 h5
          exact absurd h4 (by decide)
        · cases h1; exact h2
    · rw [if_neg hc, bigUnsigned_iff]
      constructor
      · exact Or.inl
      · rintro (h | ⟨d, h1, h2⟩)
        · exact h
        · cases h1
          obtain ⟨c', cs', h3, h4, h5⟩ := spellsNat_head h2
          subst h3
          refine absurd ⟨rfl, ?_⟩ hc
          simp only [List.head?_cons, ne_eq, Option.some.injEq]
          rintro rfl
          exact absurd h4 (by decide)

theorem bigInt_iff (s : Text) (i : Int) : bigInt s = some i ↔ SpellsInt s i := by
  unfold bigInt
  cases s with
  | nil => simp [SpellsInt, SpellsNat]
  | cons c cs =>
    simp only []
    by_cases hc : c = '-'
    · subst hc
      rw [if_pos rfl]
      have hnn : ∀ n, ¬ SpellsNat ('-' :: cs) n := by
        intro n h
        obtain ⟨_, _, h3, h4, _⟩ := spellsNat_head h
        cases h3
        exact absurd h4 (by decide)
      by_cases hp : cs.head? = some '+'
      · rw [if_pos hp]
        constructor
        · intro h
          obtain ⟨n, h1, _⟩ := Option.map_eq_some_iff.1 h
          rcases (bigUint_iff _ _).1 h1 with h2 | ⟨d, h2, _⟩
          · exact absurd h2 (hnn n)
          · cases h2
        · rintro (⟨n, h, _⟩ | ⟨d, n, h, _⟩ | ⟨d, n, h, h2, _⟩)
          · exact absurd h (hnn n)
          · cases h
          · cases h
            obtain ⟨_, _, h3, h4, _⟩ := spellsNat_head h2
            subst h3
            cases hp
            exact absurd h4 (by decide)
      · rw [if_neg hp]
        constructor
        · intro h
          obtain ⟨n, h1, h2⟩ := Option.map_eq_some_iff.1 h
          rcases (bigUint_iff _ _).1 h1 with h3 | ⟨d, rfl, _⟩
          · exact Or.inr (Or.inr ⟨cs, n, rfl, h3, h2.symm⟩)
          · exact absurd rfl hp
        · rintro (⟨n, h, _⟩ | ⟨d, n, h, _⟩ | ⟨d, n, h, h2, h3⟩)
          · exact absurd h (hnn n)
          · cases h
          · cases h
            exact Option.map_eq_some_iff.2 ⟨n, (bigUint_iff _ _).2 (Or.inl h2), h3.symm⟩
    · rw [if_neg hc]
      constructor
      · intro h
        obtain ⟨n, h1, h2⟩ := Option.map_eq_some_iff.1 h
        rcases (bigUint_iff _ _).1 h1 with h3 | ⟨d, h3, h4⟩
        · exact Or.inl ⟨n, h3, h2.symm⟩
        · exact Or.inr (Or.inl ⟨d, n, h3, h4, h2.symm⟩)
      · rintro (⟨n, h, h2⟩ | ⟨d, n, h, h2, h3⟩ | ⟨d, n, h, _⟩)
        · exact Option.map_eq_some_iff.2 ⟨n, (bigUint_iff _ _).2 (Or.inl h), h2.symm⟩
        · exact Option.map_eq_some_iff.2 ⟨n, (bigUint_iff _ _).2 (Or.inr ⟨d, h, h2⟩), h3.symm⟩
        · cases h; exact absurd rfl hc

theorem spellsNat_decimal (n : Nat) : SpellsNat (decimal n) n := by
  have hd := decimal_digits n
  have hu : ∀ c ∈ decimal n, c ≠ '_' := by
    rintro c hc rfl
    exact absurd (hd _ hc) (by decide)
  refine ⟨?_, decimal_ne_nil n, fun c hc _ => hd c hc, ?_⟩
  · intro h
    exact hu _ (List.mem_of_head? h) rfl
  · rw [List.filter_eq_self.2 (by intro a ha; simpa using hu a ha), digitsValue_decimal]

theorem bigInt_bigText (i : Int) : bigInt (bigText i) = some i := by
  rw [bigInt_iff]
  unfold bigText
  split
  · exact Or.inr (Or.inr ⟨_, i.natAbs, rfl, spellsNat_decimal _, by omega⟩)
  · exact Or.inl ⟨i.natAbs, spellsNat_decimal _, by omega⟩

/-! ## Digests, options -/

theorem readDigestN_hex {n : Nat} {b : Bytes} (h : b.length = n) : readDigestN n (.str (hexEnc b)) = .ok b := by
  unfold readDigestN
  rw [readHex_hex, Outcome.bind_ok, if_pos h]

theorem readDigestN_len {n : Nat} {j : Json} {b : Bytes} (h : readDigestN n j = .ok b) : b.length = n := by
  unfold readDigestN at h
  obtain ⟨b', _, h2⟩ := json_bind_ok.1 h
  split at h2
  · cases h2; assumption
  · cases h2

theorem dflt_perm {names : List Text} {o o' : List (Text × Json)} (h : o.Perm o') : dflt names o = dflt names o' := by
  have hp := named_perm (names := names) h
  unfold dflt
  rcases h1 : named names o with _ | ⟨a, _ | ⟨b, l⟩⟩
  · rw [h1] at hp; rw [List.nil_perm.1 hp]
  · rw [h1] at hp; rw [List.singleton_perm.1 hp]
  · rw [h1] at hp
    have := hp.length_eq
    rcases h2 : named names o' with _ | ⟨a', _ | ⟨b', l'⟩⟩
    · simp [h2] at this
    · simp [h2] at this
    · simp

theorem dflt_extra {names : List Text} {k : Text} {j : Json} {o : List (Text × Json)} (h : k ∉ names) :
    dflt names ((k, j) :: o) = dflt names o := by
  unfold dflt
  rw [named_extra h]

theorem opt_of_ne_null {k : Text} {j : Json} (h : j ≠ .null) : opt [k] [(k, j)] = .ok (some j) := by
  unfold opt named
  simp

/-! ## Votes -/

theorem readVotes_write {v : Bytes} (h : v.length = 3) : readVotes (writeVotes v) = .ok v := by
  unfold readVotes writeVotes
  simp only [hexDec_hexEnc, ofOpt, Outcome.bind_ok, h, if_true]

theorem voteBytes_ok : ∀ (l : List JNum) (b : Bytes), voteBytes l = .ok b ↔
    List.Forall₂ (fun n x => ∃ k, n = JNum.nat k ∧ k < 2 ^ 64 ∧ x = BitVec.ofNat 8 k) l b
  | [], b => by
    constructor
    · intro h; cases h; exact .nil
    · intro h; cases h; rfl
  | .nat n :: l, b => by
    rw [voteBytes]
    constructor
    · intro h
      split at h
      · rename_i hn
        obtain ⟨r, h1, h2⟩ := json_bind_ok.1 h
        cases h2
        exact .cons ⟨n, rfl, hn, rfl⟩ ((voteBytes_ok l r).1 h1)
      · cases h
    · intro h
      cases h with
      | cons h1 h2 =>
        obtain ⟨k, hk, h3, rfl⟩ := h1
        cases hk
        rw [if_pos h3, (voteBytes_ok l _).2 h2]
        rfl
  | .neg n :: l, b => by
    constructor
    · intro h; cases h
    · intro h
      cases h with
      | cons h1 h2 => obtain ⟨k, hk, _⟩ := h1; cases hk
  | .other s :: l, b => by
    constructor
    · intro h; cases h
    · intro h
      cases h with
      | cons h1 h2 => obtain ⟨k, hk, _⟩ := h1; cases hk

theorem voteBytes_cases (l : List JNum) : voteBytes l = .panic ∨ ∃ b, voteBytes l = .ok b := by
  induction l with
  | nil => exact Or.inr ⟨_, rfl⟩
  | cons n l ih =>
    cases n with
    | nat n =>
      rw [voteBytes]
      split
      · rcases ih with h | ⟨b, h⟩
        · rw [h]; exact Or.inl rfl
        · rw [h]; exact Or.inr ⟨_, rfl⟩
      · exact Or.inl rfl
    | neg n => exact Or.inl rfl
    | other s => exact Or.inl rfl

theorem jsonNums_map (ns : List JNum) : jsonNums (ns.map Json.num) = some ns := by
  induction ns with
  | nil => rfl
  | cons n ns ih => simp [jsonNums, ih]

theorem jsonNums_iff : ∀ (l : List Json) (ns : List JNum), jsonNums l = some ns ↔ l = ns.map Json.num
  | [], ns => by cases ns <;> simp [jsonNums]
  | j :: l, ns => by
    cases j with
    | num n =>
      rw [jsonNums, Option.map_eq_some_iff]
      constructor
      · rintro ⟨r, h, rfl⟩
        rw [(jsonNums_iff l r).1 h]
        rfl
      · intro h
        cases ns with
        | nil => cases h
        | cons m ns =>
          simp only [List.map_cons, List.cons.injEq, Json.num.injEq] at h
          exact ⟨ns, (jsonNums_iff l ns).2 h.2, by rw [h.1]⟩
    | null => cases ns <;> simp [jsonNums]
    | bool => cases ns <;> simp [jsonNums]
    | str => cases ns <;> simp [jsonNums]
    | arr => cases ns <;> simp [jsonNums]
    | obj => cases ns <;> simp [jsonNums]

theorem readVotes_len {j : Json} {v : Bytes} (h : readVotes j = .ok v) : v.length = 3 := by
  cases j with
  | str s =>
    unfold readVotes at h
    obtain ⟨b, _, h2⟩ := json_bind_ok.1 h
    split at h2
    · cases h2; assumption
    · cases h2
  | arr l =>
    unfold readVotes at h
    obtain ⟨ns, _, h2⟩ := json_bind_ok.1 h
    obtain ⟨b, _, h2⟩ := json_bind_ok.1 h2
    split at h2
    · cases h2; assumption
    · cases h2
  | null => cases h
  | bool => cases h
  | num => cases h
  | obj => cases h

/-! ## Headers -/

section
variable {G : Type}

theorem readOpt_writeOpt {α : Type} {f : Json → Outcome α} {g : α → Json} {a : α} (h : f (g a) = .ok a) :
    readOpt f (some (g a)) = .ok (some a) := by
  show (f (g a) >>= fun a => (pure (some a) : Outcome (Option α))) = _
  rw [h]
  rfl

variable [DecidableEq G]

theorem readSolution_write (fl : Text → Option Int) (pc : PointCodec G) (s : AutolykosSolution G) (i : Int)
    (h : s.distance = some i) : readSolution fl pc (writeSolution pc s) = .ok s := by
  obtain ⟨pk, w, n, d⟩ := s
  simp only [] at h
  subst h
  unfold readSolution writeSolution
  simp only []
  have h1 : ∀ x : Json, (req [kPk] [(kPk, writePoint pc pk), (kOnetime, x), (kNonce, Json.str (hexEnc n)),
      (kDistance, writeDistance (some i))] >>= readPoint pc) = .ok pk := fun x => readPoint_write pc pk
  have h2 : (opt [kOnetime] [(kPk, writePoint pc pk), (kOnetime, writeOpt (writePoint pc) w), (kNonce, Json.str (hexEnc n)),
      (kDistance, writeDistance (some i))] >>= readOpt (readPoint pc)) = .ok w := by
    cases w with
    | none => rfl
    | some g =>
      show readOpt (readPoint pc) (some (writePoint pc g)) = _
      exact readOpt_writeOpt (readPoint_write pc g)
  have h3 : (req [kNonce] [(kPk, writePoint pc pk), (kOnetime, writeOpt (writePoint pc) w), (kNonce, Json.str (hexEnc n)),
      (kDistance, writeDistance (some i))] >>= readHex) = .ok n := readHex_hex n
  have h4 : (dflt [kDistance] [(kPk, writePoint pc pk), (kOnetime, writeOpt (writePoint pc) w),
      (kNonce, Json.str (hexEnc n)), (kDistance, writeDistance (some i))] >>= readOpt (readDistance fl)) = .ok (some i) := by
    show readOpt (readDistance fl) (some (Json.str (bigText i))) = _
    exact readOpt_writeOpt (g := fun i => Json.str (bigText i)) (by
      show ofOpt (bigInt (bigText i)) = _
      rw [bigInt_bigText]; rfl)
  rw [h1, Outcome.bind_ok, h2, Outcome.bind_ok, h3, Outcome.bind_ok, h4, Outcome.bind_ok]
  rfl

theorem readSolution_null (fl : Text → Option Int) (pc : PointCodec G) (s : AutolykosSolution G) (h : s.distance = none) :
    readSolution fl pc (writeSolution pc s) = .err := by
  obtain ⟨pk, w, n, d⟩ := s
  simp only [] at h
  subst h
  unfold readSolution writeSolution
  simp only []
  have h1 : ∀ x : Json, (req [kPk] [(kPk, writePoint pc pk), (kOnetime, x), (kNonce, Json.str (hexEnc n)),
      (kDistance, writeDistance none)] >>= readPoint pc) = .ok pk := fun x => readPoint_write pc pk
  have h2 : (opt [kOnetime] [(kPk, writePoint pc pk), (kOnetime, writeOpt (writePoint pc) w), (kNonce, Json.str (hexEnc n)),
      (kDistance, writeDistance none)] >>= readOpt (readPoint pc)) = .ok w := by
    cases w with
    | none => rfl
    | some g =>
      show readOpt (readPoint pc) (some (writePoint pc g)) = _
      exact readOpt_writeOpt (readPoint_write pc g)
  have h3 : (req [kNonce] [(kPk, writePoint pc pk), (kOnetime, writeOpt (writePoint pc) w), (kNonce, Json.str (hexEnc n)),
      (kDistance, writeDistance none)] >>= readHex) = .ok n := readHex_hex n
  have h4 : (dflt [kDistance] [(kPk, writePoint pc pk), (kOnetime, writeOpt (writePoint pc) w),
      (kNonce, Json.str (hexEnc n)), (kDistance, writeDistance none)] >>= readOpt (readDistance fl)) = .err := rfl
  rw [h1, Outcome.bind_ok, h2, Outcome.bind_ok, h3, Outcome.bind_ok, h4]
  rfl

/-- When reading an object as a header succeeds. -/
theorem readHeader_iff (fl : Text → Option Int) (pc : PointCodec G) (o : List (Text × Json)) (h : Header G) :
    readHeader fl pc (.obj o) = .ok h ↔
      (req [kVersion] o >>= readUint (2 ^ 8)) = .ok h.version.toNat ∧ (req [kId] o >>= readDigest) = .ok h.id ∧
      (req [kParentId] o >>= readDigest) = .ok h.parentId ∧ (req [kAdProofsRoot] o >>= readDigest) = .ok h.adProofsRoot ∧
      (req [kStateRoot] o >>= readDigestN 33) = .ok h.stateRoot ∧
      (req [kTransactionsRoot] o >>= readDigest) = .ok h.transactionRoot ∧
      (req [kTimestamp] o >>= readUint (2 ^ 64)) = .ok h.timestamp.toNat ∧
      (req [kNBits] o >>= readUint (2 ^ 64)) = .ok h.nBits.toNat ∧
      (req [kBlockHeight] o >>= readUint (2 ^ 32)) = .ok h.height.toNat ∧
      (req [kExtensionHash] o >>= readDigest) = .ok h.extensionRoot ∧
      (req [kPowSolutions] o >>= readSolution fl pc) = .ok h.solution ∧ (req [kVotes] o >>= readVotes) = .ok h.votes := by
  unfold readHeader
  simp only []
  constructor
  · intro e
    obtain ⟨a1, h1, e⟩ := json_bind_ok.1 e
    obtain ⟨a2, h2, e⟩ := json_bind_ok.1 e
    obtain ⟨a3, h3, e⟩ := json_bind_ok.1 e
    obtain ⟨a4, h4, e⟩ := json_bind_ok.1 e
    obtain ⟨a5, h5, e⟩ := json_bind_ok.1 e
    obtain ⟨a6, h6, e⟩ := json_bind_ok.1 e
    obtain ⟨a7, h7, e⟩ := json_bind_ok.1 e
    obtain ⟨a8, h8, e⟩ := json_bind_ok.1 e
    obtain ⟨a9, h9, e⟩ := json_bind_ok.1 e
    obtain ⟨a10, h10, e⟩ := json_bind_ok.1 e
    obtain ⟨a11, h11, e⟩ := json_bind_ok.1 e
    obtain ⟨a12, h12, e⟩ := json_bind_ok.1 e
    cases e
    have lt : ∀ {k : Text} {n a : Nat}, (req [k] o >>= readUint n) = .ok a → a < n := by
      intro k n a hh
      obtain ⟨_, _, h6⟩ := json_bind_ok.1 hh
      exact readUint_lt h6
    have b1 := lt h1
    have b7 := lt h7
    have b8 := lt h8
    have b9 := lt h9
    refine ⟨?_, h2, h3, h4, h5, h6, ?_, ?_, ?_, h10, h11, h12⟩
    · rw [h1, BitVec.toNat_ofNat, Nat.mod_eq_of_lt b1]
    · rw [h7, BitVec.toNat_ofNat, Nat.mod_eq_of_lt b7]
    · rw [h8, BitVec.toNat_ofNat, Nat.mod_eq_of_lt b8]
    · rw [h9, BitVec.toNat_ofNat, Nat.mod_eq_of_lt b9]
  · rintro ⟨h1, h2, h3, h4, h5, h6, h7, h8, h9, h10, h11, h12⟩
    rw [h1, Outcome.bind_ok, h2, Outcome.bind_ok, h3, Outcome.bind_ok, h4, Outcome.bind_ok, h5, Outcome.bind_ok, h6,
      Outcome.bind_ok, h7, Outcome.bind_ok, h8, Outcome.bind_ok, h9, Outcome.bind_ok, h10, Outcome.bind_ok, h11,
      Outcome.bind_ok, h12, Outcome.bind_ok]
    simp only [Outcome.pure_eq, BitVec.ofNat_toNat, BitVec.setWidth_eq]

theorem readHeader_write (fl : Text → Option Int) (pc : PointCodec G) (h : Header G) (g : HeaderSizes h) (i : Int)
    (hd : h.solution.distance = some i) : readHeader fl pc (writeHeader pc h) = .ok h := by
  unfold writeHeader
  rw [readHeader_iff]
  exact ⟨readUint_nat h.version.isLt, readDigest_hex g.id, readDigest_hex g.parentId, readDigest_hex g.adProofsRoot,
    readDigestN_hex g.stateRoot, readDigest_hex g.transactionRoot, readUint_nat h.timestamp.isLt, readUint_nat h.nBits.isLt,
    readUint_nat h.height.isLt, readDigest_hex g.extensionRoot, readSolution_write fl pc h.solution i hd,
    readVotes_write g.votes⟩

/-- Reading a field in front of the rest. -/
theorem bind_err_of {α β : Type} {x : Outcome α} {f : α → Outcome β} (h : x = .err) : (x >>= f) = .err := by
  rw [h]; rfl

theorem readHeader_null (fl : Text → Option Int) (pc : PointCodec G) (h : Header G) (g : HeaderSizes h)
    (hd : h.solution.distance = none) : readHeader fl pc (writeHeader pc h) = .err := by
  unfold writeHeader readHeader
  simp only []
  refine Eq.trans (congrArg₂ Bind.bind (readUint_nat (b := 2 ^ 8) h.version.isLt) rfl) ?_
  rw [Outcome.bind_ok]
  refine Eq.trans (congrArg₂ Bind.bind (readDigest_hex g.id) rfl) ?_
  rw [Outcome.bind_ok]
  refine Eq.trans (congrArg₂ Bind.bind (readDigest_hex g.parentId) rfl) ?_
  rw [Outcome.bind_ok]
  refine Eq.trans (congrArg₂ Bind.bind (readDigest_hex g.adProofsRoot) rfl) ?_
  rw [Outcome.bind_ok]
  refine Eq.trans (congrArg₂ Bind.bind (readDigestN_hex g.stateRoot) rfl) ?_
  rw [Outcome.bind_ok]
  refine Eq.trans (congrArg₂ Bind.bind (readDigest_hex g.transactionRoot) rfl) ?_
  rw [Outcome.bind_ok]
  refine Eq.trans (congrArg₂ Bind.bind (readUint_nat (b := 2 ^ 64) h.timestamp.isLt) rfl) ?_
  rw [Outcome.bind_ok]
  refine Eq.trans (congrArg₂ Bind.bind (readUint_nat (b := 2 ^ 64) h.nBits.isLt) rfl) ?_
  rw [Outcome.bind_ok]
  refine Eq.trans (congrArg₂ Bind.bind (readUint_nat (b := 2 ^ 32) h.height.isLt) rfl) ?_
  rw [Outcome.bind_ok]
  refine Eq.trans (congrArg₂ Bind.bind (readDigest_hex g.extensionRoot) rfl) ?_
  rw [Outcome.bind_ok]
  exact bind_err_of (readSolution_null fl pc h.solution hd)

theorem readHeader_sizes (fl : Text → Option Int) (pc : PointCodec G) (j : Json) (h : Header G)
    (e : readHeader fl pc j = .ok h) : HeaderSizes h := by
  cases j with
  | obj o =>
    obtain ⟨_, h2, h3, h4, h5, h6, _, _, _, h10, _, h12⟩ := (readHeader_iff fl pc o h).1 e
    have d : ∀ {k : Text} {b : Bytes}, (req [k] o >>= readDigest) = .ok b → b.length = 32 := by
      intro k b hh
      obtain ⟨_, _, h⟩ := json_bind_ok.1 hh
      exact readDigest_len h
    obtain ⟨_, _, h5⟩ := json_bind_ok.1 h5
    obtain ⟨_, _, h12⟩ := json_bind_ok.1 h12
    exact ⟨d h2, d h3, d h4, readDigestN_len h5, d h6, d h10, readVotes_len h12⟩
  | null => cases e
  | bool => cases e
  | num => cases e
  | str => cases e
  | arr => cases e

end

/-! ## Merkle proofs -/

theorem readSide_write (s : Side) : readSide (writeSide s) = .ok s := by
  cases s <;> rfl

theorem levelHash_text {h : Option Bytes} (hs : ∀ b, h = some b → b.length = 32) : levelHash (levelText h) = .ok h := by
  cases h with
  | none => rfl
  | some b =>
    have := hs b rfl
    unfold levelHash levelText
    simp only [hexDec_hexEnc, ofOpt, Outcome.bind_ok, this]
    rfl

theorem readLevel_write {l : LevelNode} (h : LevelSizes l) : readLevel (writeLevel l) = .ok l := by
  unfold readLevel writeLevel
  simp only [readStr, Outcome.bind_ok, readSide_write, levelHash_text h]
  rfl

theorem readBatchLevel_write {l : LevelNode} (h : LevelSizes l) : readBatchLevel (writeBatchLevel l) = .ok l := by
  have h1 : (req [kDigest] [(kDigest, Json.str (levelText l.hash)), (kSide, writeSide l.side)] >>= readStr) =
    .ok (levelText l.hash) := rfl
  have h2 : (req [kSide] [(kDigest, Json.str (levelText l.hash)), (kSide, writeSide l.side)] >>= readSide) =
    .ok l.side := readSide_write l.side
  unfold readBatchLevel writeBatchLevel
  simp only []
  rw [h1, Outcome.bind_ok, h2, Outcome.bind_ok, levelHash_text h]
  rfl

theorem readIndexed_write {x : Indexed} (h1 : x.hash.length = 32) (h2 : x.index < 2 ^ 64) :
    readIndexed (writeIndexed x) = .ok x := by
  have e1 : (req [kIndex] [(kIndex, Json.num (.nat x.index)), (kDigest, Json.str (hexEnc x.hash))] >>= readUint (2 ^ 64)) =
    .ok x.index := readUint_nat h2
  have e2 : (req [kDigest] [(kIndex, Json.num (.nat x.index)), (kDigest, Json.str (hexEnc x.hash))] >>= readDigest) =
    .ok x.hash := readDigest_hex h1
  unfold readIndexed writeIndexed
  simp only []
  rw [e1, Outcome.bind_ok, e2, Outcome.bind_ok]
  rfl

theorem readProof_write {p : Proof} (h : ∀ l ∈ p.levels, LevelSizes l) : readProof (writeProof p) = .ok p := by
  have e1 : (req [kLeafData] [(kLeafData, Json.str (hexEnc p.leafData)), (kLevels, Json.arr (p.levels.map writeLevel))] >>=
    readHex) = .ok p.leafData := readHex_hex _
  have e2 : (req [kLevels] [(kLeafData, Json.str (hexEnc p.leafData)), (kLevels, Json.arr (p.levels.map writeLevel))] >>=
    readArr readLevel) = .ok p.levels := readArr_map fun l hl => readLevel_write (h l hl)
  unfold readProof writeProof
  simp only []
  rw [e1, Outcome.bind_ok, e2, Outcome.bind_ok]
  rfl

theorem readBatch_write {p : Batch} (h : BatchSizes p) : readBatch (writeBatch p) = .ok p := by
  have e1 : (req [kIndices] [(kIndices, Json.arr (p.indices.map writeIndexed)),
    (kProofs, Json.arr (p.proofs.map writeBatchLevel))] >>= readArr readIndexed) = .ok p.indices :=
    readArr_map fun x hx => readIndexed_write (h.indices x hx).1 (h.indices x hx).2
  have e2 : (req [kProofs] [(kIndices, Json.arr (p.indices.map writeIndexed)),
    (kProofs, Json.arr (p.proofs.map writeBatchLevel))] >>= readArr readBatchLevel) = .ok p.proofs :=
    readArr_map fun l hl => readBatchLevel_write (h.proofs l hl)
  unfold readBatch writeBatch
  simp only []
  rw [e1, Outcome.bind_ok, e2, Outcome.bind_ok]
  rfl

/-! ## NiPoPoW proofs -/

section
variable {G : Type} [DecidableEq G]

theorem readPoPow_write (fl : Text → Option Int) (pc : PointCodec G) {p : PoPowHeader G} (h : PoPowSizes p)
    (hd : p.header.solution.distance ≠ none) : readPoPow fl pc (writePoPow pc p) = .ok p := by
  obtain ⟨i, hi⟩ := Option.ne_none_iff_exists'.1 hd
  have e1 : (req [kHeader] [(kHeader, writeHeader pc p.header),
    (kInterlinks, Json.arr (p.interlinks.map fun b => Json.str (hexEnc b))), (kInterlinksProof, writeBatch p.proof)] >>=
    readHeader fl pc) = .ok p.header := readHeader_write fl pc _ h.header i hi
  have e2 : (req [kInterlinks] [(kHeader, writeHeader pc p.header),
    (kInterlinks, Json.arr (p.interlinks.map fun b => Json.str (hexEnc b))), (kInterlinksProof, writeBatch p.proof)] >>=
    readArr readDigest) = .ok p.interlinks :=
    readArr_map (g := fun b => Json.str (hexEnc b)) fun b hb => readDigest_hex (h.links b hb)
  have e3 : (req [kInterlinksProof] [(kHeader, writeHeader pc p.header),
    (kInterlinks, Json.arr (p.interlinks.map fun b => Json.str (hexEnc b))), (kInterlinksProof, writeBatch p.proof)] >>=
    readBatch) = .ok p.proof := readBatch_write h.proof
  unfold readPoPow writePoPow
  simp only []
  rw [e1, Outcome.bind_ok, e2, Outcome.bind_ok, e3, Outcome.bind_ok]
  rfl

theorem readPoPow_null (fl : Text → Option Int) (pc : PointCodec G) {p : PoPowHeader G} (h : PoPowSizes p)
    (hd : p.header.solution.distance = none) : readPoPow fl pc (writePoPow pc p) = .err := by
  unfold readPoPow writePoPow
  simp only []
  exact bind_err_of (readHeader_null fl pc p.header h.header hd)

theorem readArr_err {α : Type} {f : Json → Outcome α} {g : α → Json} : ∀ {l : List α},
    (∀ a ∈ l, f (g a) = .ok a ∨ f (g a) = .err) → (∃ a ∈ l, f (g a) = .err) → readArr f (.arr (l.map g)) = .err := by
  intro l
  show _ → _ → readArr.go f (l.map g) = .err
  induction l with
  | nil => intro _ h; obtain ⟨a, h, _⟩ := h; cases h
  | cons a l ih =>
    intro h1 h2
    rw [List.map_cons, readArr.go]
    rcases h1 a (List.mem_cons_self ..) with h | h
    · rw [h, Outcome.bind_ok, ih (fun b hb => h1 b (List.mem_cons_of_mem _ hb))]
      · rfl
      · obtain ⟨b, hb, hb2⟩ := h2
        rcases List.mem_cons.1 hb with rfl | hb
        · rw [h] at hb2; cases hb2
        · exact ⟨b, hb, hb2⟩
    · rw [h]; rfl

theorem readNipopow_write (fl : Text → Option Int) (pc : PointCodec G) (p : NipopowProof G) (h : NipopowSizes p)
    (hd : ∀ x ∈ nipopowHeaders p, x.solution.distance ≠ none) : readNipopow fl pc (writeNipopow pc p) = .ok p := by
  have m1 : ∀ x ∈ p.pre, x.header ∈ nipopowHeaders p := fun x hx =>
    List.mem_append_left _ (List.mem_map_of_mem hx)
  have m2 : p.suffixHead.header ∈ nipopowHeaders p := List.mem_append_right _ (List.mem_cons_self ..)
  have m3 : ∀ x ∈ p.suffixTail, x ∈ nipopowHeaders p := fun x hx => List.mem_append_right _ (List.mem_cons_of_mem _ hx)
  unfold writeNipopow readNipopow
  simp only []
  refine Eq.trans (congrArg₂ Bind.bind (readUint_nat (b := 2 ^ 32) p.m.isLt) rfl) ?_
  rw [Outcome.bind_ok]
  refine Eq.trans (congrArg₂ Bind.bind (readUint_nat (b := 2 ^ 32) p.k.isLt) rfl) ?_
  rw [Outcome.bind_ok]
  refine Eq.trans (congrArg₂ Bind.bind (readArr_map (f := readPoPow fl pc) (g := writePoPow pc)
    fun x hx => readPoPow_write fl pc (h.pre x hx) (hd _ (m1 x hx))) rfl) ?_
  rw [Outcome.bind_ok]
  refine Eq.trans (congrArg₂ Bind.bind (readPoPow_write fl pc h.head (hd _ m2)) rfl) ?_
  rw [Outcome.bind_ok]
  refine Eq.trans (congrArg₂ Bind.bind (readArr_map (f := readHeader fl pc) (g := writeHeader pc) fun x hx => by
    obtain ⟨i, hi⟩ := Option.ne_none_iff_exists'.1 (hd _ (m3 x hx))
    exact readHeader_write fl pc x (h.tail x hx) i hi) rfl) ?_
  rw [Outcome.bind_ok]
  simp only [Outcome.pure_eq, BitVec.ofNat_toNat, BitVec.setWidth_eq]

theorem readPoPow_or (fl : Text → Option Int) (pc : PointCodec G) {p : PoPowHeader G} (h : PoPowSizes p) :
    readPoPow fl pc (writePoPow pc p) = .ok p ∨ readPoPow fl pc (writePoPow pc p) = .err := by
  by_cases hd : p.header.solution.distance = none
  · exact Or.inr (readPoPow_null fl pc h hd)
  · exact Or.inl (readPoPow_write fl pc h hd)

theorem readHeader_or (fl : Text → Option Int) (pc : PointCodec G) {p : Header G} (h : HeaderSizes p) :
    readHeader fl pc (writeHeader pc p) = .ok p ∨ readHeader fl pc (writeHeader pc p) = .err := by
  cases hd : p.solution.distance with
  | none => exact Or.inr (readHeader_null fl pc p h hd)
  | some i => exact Or.inl (readHeader_write fl pc p h i hd)

theorem readNipopow_null (fl : Text → Option Int) (pc : PointCodec G) (p : NipopowProof G) (h : NipopowSizes p)
    (hd : ∃ x ∈ nipopowHeaders p, x.solution.distance = none) : readNipopow fl pc (writeNipopow pc p) = .err := by
  unfold writeNipopow readNipopow
  simp only []
  refine Eq.trans (congrArg₂ Bind.bind (readUint_nat (b := 2 ^ 32) p.m.isLt) rfl) ?_
  rw [Outcome.bind_ok]
  refine Eq.trans (congrArg₂ Bind.bind (readUint_nat (b := 2 ^ 32) p.k.isLt) rfl) ?_
  rw [Outcome.bind_ok]
  by_cases h1 : ∃ x ∈ p.pre, x.header.solution.distance = none
  · obtain ⟨x, hx, hx2⟩ := h1
    exact bind_err_of (readArr_err (f := readPoPow fl pc) (g := writePoPow pc)
      (fun y hy => readPoPow_or fl pc (h.pre y hy)) ⟨x, hx, readPoPow_null fl pc (h.pre x hx) hx2⟩)
  · refine Eq.trans (congrArg₂ Bind.bind (readArr_map (f := readPoPow fl pc) (g := writePoPow pc)
      fun x hx => readPoPow_write fl pc (h.pre x hx) (fun hn => h1 ⟨x, hx, hn⟩)) rfl) ?_
    rw [Outcome.bind_ok]
    by_cases h2 : p.suffixHead.header.solution.distance = none
    · exact bind_err_of (readPoPow_null fl pc h.head h2)
    · refine Eq.trans (congrArg₂ Bind.bind (readPoPow_write fl pc h.head h2) rfl) ?_
      rw [Outcome.bind_ok]
      obtain ⟨x, hx, hx2⟩ := hd
      rcases List.mem_append.1 hx with hx | hx
      · obtain ⟨y, hy, rfl⟩ := List.mem_map.1 hx
        exact absurd ⟨y, hy, hx2⟩ h1
      · rcases List.mem_cons.1 hx with rfl | hx
        · exact absurd hx2 h2
        · exact bind_err_of (readArr_err (f := readHeader fl pc) (g := writeHeader pc)
            (fun y hy => readHeader_or fl pc (h.tail y hy)) ⟨x, hx, readHeader_null fl pc x (h.tail x hx) hx2⟩)

end

end Verif
