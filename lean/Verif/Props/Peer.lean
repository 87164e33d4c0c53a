import Verif.Model.Peer
import Verif.Proofs.VlqGet
import Verif.Proofs.FMap
import Verif.Proofs.SigmaBoolean
import Verif.Proofs.Header

set_option linter.unusedVariables false
set_option linter.unusedSimpArgs false

/-! # C47: peer messages; C62: the peer database -/

namespace Verif

/-! ## Specification -/

/-- An IPv4 address: the only kind the protocol carries. -/
def PeerAddr.IsV4 : PeerAddr → Prop
  | .v4 .. => True
  | .v6 .. => False

/-- A local address feature with an IPv4 address. -/
def PeerFeature.Sendable : PeerFeature → Prop
  | .localAddress a => a.IsV4

/-- The limits of the protocol: names of at most 255 bytes of UTF-8, an agent name, IPv4 addresses, 1 to 255 features if any. -/
structure PeerSpec.Sendable (utf8 : Bytes → Bool) (s : PeerSpec) : Prop where
  agent : s.agentName ≠ [] ∧ s.agentName.length ≤ 255 ∧ utf8 s.agentName = true
  node : s.nodeName.length ≤ 255 ∧ utf8 s.nodeName = true
  declared : ∀ a ∈ s.declaredAddr, a.IsV4
  features : ∀ l ∈ s.features, 1 ≤ l.length ∧ l.length ≤ 255 ∧ ∀ f ∈ l, f.Sendable

/-! ## C47 -/

theorem PeerAddr.raw_ser {a : PeerAddr} (h : a.IsV4) : ∃ b x, a.ser = some b ∧ b.length ≤ 14 ∧ PeerAddr.ofRaw x = some a ∧
    ∀ rest, PeerAddr.parseRaw (b ++ rest) = some (x, rest) := by
  cases a with
  | v6 => exact h.elim
  | v4 a b c d port =>
    refine ⟨[a, b, c, d] ++ putU32 (port.setWidth 32), ((a, b, c, d), port.setWidth 32), rfl, ?_, ?_, fun rest => ?_⟩
    · have := putU64_length ((port.setWidth 32).setWidth 64)
      simp only [List.length_append, List.length_cons, List.length_nil]
      unfold putU32
      omega
    · unfold PeerAddr.ofRaw
      have : (port.setWidth 32).toNat = port.toNat := by
        rw [BitVec.toNat_setWidth]; have := port.isLt; omega
      rw [if_pos (by show (port.setWidth 32).toNat < _; rw [this]; exact port.isLt)]
      have h2 : (port.setWidth 32).setWidth 16 = port := by
        apply BitVec.eq_of_toNat_eq
        rw [BitVec.toNat_setWidth, this]
        have := port.isLt
        omega
      simp only [h2]
    · unfold PeerAddr.parseRaw
      simp only [List.append_assoc, List.cons_append, List.nil_append]
      rw [Parser.bind_some (getU8_cons _ _), Parser.bind_some (getU8_cons _ _), Parser.bind_some (getU8_cons _ _),
        Parser.bind_some (getU8_cons _ _), Parser.bind_some (getU32_put _ _)]
      rfl

/-- C47: IPv4 peer addresses round-trip; IPv6 ones are refused by the writer. -/
theorem C47_addr (a : PeerAddr) :
    (a.IsV4 → ∃ b, a.ser = some b ∧ ∀ rest, PeerAddr.parse (b ++ rest) = some (a, rest)) ∧ (¬a.IsV4 → a.ser = none) := by
  refine ⟨fun h => ?_, fun h => ?_⟩
  · obtain ⟨b, x, h1, _, h2, h3⟩ := PeerAddr.raw_ser h
    refine ⟨b, h1, fun rest => ?_⟩
    unfold PeerAddr.parse
    rw [Parser.bind_some (h3 rest), h2]
    rfl
  · cases a with
    | v4 => exact absurd trivial h
    | v6 => rfl

example : (PeerAddr.v4 127 0 0 1 9053).IsV4 := trivial

/-- C47: protocol versions round-trip. -/
theorem C47_version (v : ProtocolVersion) (rest : Bytes) : ProtocolVersion.parse (v.ser ++ rest) = some (v, rest) := rfl

/-- C47: features with an IPv4 address round-trip. -/
theorem C47_feature (f : PeerFeature) (h : f.Sendable) : ∃ b, f.ser = some b ∧ ∀ rest, PeerFeature.parse (b ++ rest) = some (f, rest) := by
  obtain ⟨a⟩ := f
  obtain ⟨b, x, h1, hl, h2, h3⟩ := PeerAddr.raw_ser h
  have hb : PeerAddr.parse b = some (a, []) := by
    have := h3 []
    rw [List.append_nil] at this
    unfold PeerAddr.parse
    rw [Parser.bind_some this, h2]
    rfl
  refine ⟨putU8 2 ++ putU16 (BitVec.ofNat 16 b.length) ++ b, ?_, fun rest => ?_⟩
  · show (a.ser.bind fun bytes => if bytes.length < 2 ^ 16 then some (putU8 2 ++ putU16 (BitVec.ofNat 16 bytes.length) ++ bytes)
      else none) = _
    rw [h1]
    show (if b.length < 2 ^ 16 then _ else _) = _
    rw [if_pos (by omega)]
  · unfold PeerFeature.parse
    simp only [List.append_assoc, putU8, List.cons_append, List.nil_append]
    rw [Parser.bind_some (getU8_cons _ _), Parser.bind_some (getU16_put _ _),
      Parser.bind_some (readExact_append' b rest (by
        rw [BitVec.toNat_ofNat]; omega)), if_pos rfl, hb]
    rfl

theorem PeerSpec.features_rt : ∀ (l : List PeerFeature), (∀ f ∈ l, f.Sendable) → ∃ b, PeerSpec.serFeatures l = some b ∧
    ∀ rest, replicateP l.length PeerFeature.parse (b ++ rest) = some (l, rest)
  | [], _ => ⟨[], rfl, fun _ => rfl⟩
  | f :: l, h => by
    obtain ⟨b1, h1, h2⟩ := C47_feature f (h f (by simp))
    obtain ⟨b2, h3, h4⟩ := PeerSpec.features_rt l (fun g hg => h g (by simp [hg]))
    refine ⟨b1 ++ b2, ?_, fun rest => ?_⟩
    · unfold PeerSpec.serFeatures
      rw [h1, h3]
      rfl
    · rw [List.append_assoc, List.length_cons]
      unfold replicateP
      rw [Parser.bind_some (h2 _), Parser.bind_some (h4 rest)]
      rfl

theorem PeerSpec.declared_rt (stuck : Bytes → Bytes) (o : Option PeerAddr) (h : ∀ a ∈ o, a.IsV4) : ∃ b, PeerSpec.serDeclared o = some b ∧
    ∀ rest, PeerSpec.getDeclared stuck (b ++ rest) = some (o, rest) := by
  cases o with
  | none => exact ⟨_, rfl, fun _ => rfl⟩
  | some a =>
    obtain ⟨b, x, h1, _, h2, h3⟩ := PeerAddr.raw_ser (h a rfl)
    refine ⟨putU8 1 ++ (putU8 (BitVec.ofNat 8 a.ipSize) ++ b), ?_, fun rest => ?_⟩
    · show (a.ser.bind fun b => some (putU8 1 ++ (putU8 (BitVec.ofNat 8 a.ipSize) ++ b))) = _
      rw [h1]
      rfl
    · unfold PeerSpec.getDeclared
      simp only [List.append_assoc, putU8, List.cons_append, List.nil_append]
      rw [if_pos trivial, Parser.bind_some (getU8_cons _ _), h3 rest]
      simp only [h2]

/-- C47: a peer specification within the limits of the protocol is written, and read back as itself, whatever follows it. -/
theorem C47_roundtrip_partial (utf8 : Bytes → Bool) (stuck : Bytes → Bytes) (s : PeerSpec) (h : s.Sendable utf8) :
    ∃ b, s.ser = some b ∧ ∀ rest, PeerSpec.parse utf8 stuck (b ++ rest) = some (s, rest) := by
  obtain ⟨agent, version, node, decl, feats⟩ := s
  obtain ⟨⟨ha1, ha2, ha3⟩, ⟨hn1, hn2⟩, hd, hf⟩ := h
  obtain ⟨bd, hd1, hd2⟩ := PeerSpec.declared_rt stuck decl hd
  have ha := fun rest => getShortString_put utf8 agent ha3 ha2 rest
  have hn := fun rest => getShortString_put utf8 node hn2 hn1 rest
  have hpa : putShortString agent = some (putU8 (BitVec.ofNat 8 agent.length) ++ agent) := by simp [putShortString]; omega
  have hpn : putShortString node = some (putU8 (BitVec.ofNat 8 node.length) ++ node) := by simp [putShortString]; omega
  have ha : ∀ rest, getShortString utf8 ((putU8 (BitVec.ofNat 8 agent.length) ++ agent) ++ rest) = some (agent, rest) := by
    intro rest
    obtain ⟨b, h1, h2⟩ := ha rest
    rw [hpa] at h1
    cases h1
    exact h2
  have hn : ∀ rest, getShortString utf8 ((putU8 (BitVec.ofNat 8 node.length) ++ node) ++ rest) = some (node, rest) := by
    intro rest
    obtain ⟨b, h1, h2⟩ := hn rest
    rw [hpn] at h1
    cases h1
    exact h2
  cases feats with
  | none =>
    refine ⟨_, by
      unfold PeerSpec.ser
      simp only
      rw [hpa, hpn, hd1]
      rfl, fun rest => ?_⟩
    simp only [List.append_assoc]
    unfold PeerSpec.parse
    rw [Parser.bind_some (by rw [← List.append_assoc]; exact ha _), if_neg ha1, Parser.bind_some (C47_version version _),
      Parser.bind_some (by rw [← List.append_assoc]; exact hn _), Parser.bind_some (hd2 _)]
    rfl
  | some l =>
    obtain ⟨hl1, hl2, hl3⟩ := hf l rfl
    obtain ⟨bf, hf1, hf2⟩ := PeerSpec.features_rt l hl3
    refine ⟨_, by
      unfold PeerSpec.ser
      simp only
      rw [hpa, hpn, hd1, hf1]
      rfl, fun rest => ?_⟩
    simp only [List.append_assoc]
    have hlen : (BitVec.ofNat 8 l.length).toNat = l.length := by rw [BitVec.toNat_ofNat]; omega
    unfold PeerSpec.parse
    rw [Parser.bind_some (by rw [← List.append_assoc]; exact ha _), if_neg ha1, Parser.bind_some (C47_version version _),
      Parser.bind_some (by rw [← List.append_assoc]; exact hn _), Parser.bind_some (hd2 _),
      Parser.bind_some (show getU8 (putU8 (BitVec.ofNat 8 l.length) ++ (bf ++ rest)) = some (BitVec.ofNat 8 l.length, bf ++ rest) from
        getU8_cons _ _),
      if_neg (by intro hc; rw [hc] at hlen; simp at hlen; omega), hlen, Parser.bind_some (hf2 rest)]
    rfl

/-- A specification with everything. -/
def peerExample : PeerSpec :=
  ⟨[97, 98], ⟨5, 0, 20⟩, [], some (.v4 10 0 0 1 9030), some [.localAddress (.v4 127 0 0 1 65535)]⟩

theorem peerExample_sendable : peerExample.Sendable (fun _ => true) :=
  ⟨by decide, by decide, by simp [peerExample, PeerAddr.IsV4], by simp [peerExample, PeerFeature.Sendable, PeerAddr.IsV4]⟩

/-- C47: different specifications have different bytes, neither a prefix of the other. -/
theorem C47_injective (utf8 : Bytes → Bool) (s t : PeerSpec) (hs : s.Sendable utf8) (ht : t.Sendable utf8) (b c r r' : Bytes)
    (h1 : s.ser = some b) (h2 : t.ser = some c) (h : b ++ r = c ++ r') : s = t ∧ r = r' := by
  obtain ⟨b', e1, p1⟩ := C47_roundtrip_partial utf8 id s hs
  obtain ⟨c', e2, p2⟩ := C47_roundtrip_partial utf8 id t ht
  rw [h1] at e1
  rw [h2] at e2
  cases e1
  cases e2
  have := p1 r
  rw [h, p2 r'] at this
  cases this
  exact ⟨rfl, rfl⟩

theorem replicateP_length {α : Type} {p : Parser α} : ∀ n s l r, replicateP n p s = some (l, r) → l.length = n := by
  intro n
  induction n with
  | zero => intro s l r h; cases h; rfl
  | succ n ih =>
    intro s l r h
    unfold replicateP at h
    obtain ⟨a, r1, _, h⟩ := Parser.bind_eq_some.1 h
    obtain ⟨as, r2, h2, h⟩ := Parser.bind_eq_some.1 h
    cases h
    simp [ih _ _ _ h2]

/-- C47: whatever is read is within the limits, so it is written and read back as itself. -/
theorem C47_reread (utf8 : Bytes → Bool) (stuck : Bytes → Bytes) (bytes rest : Bytes) (s : PeerSpec)
    (h : PeerSpec.parse utf8 stuck bytes = some (s, rest)) : s.Sendable utf8 := by
  have str : ∀ (x r y : Bytes), getShortString utf8 x = some (y, r) → y.length ≤ 255 ∧ utf8 y = true := by
    intro x r y h
    unfold getShortString at h
    obtain ⟨n, r1, _, h⟩ := Parser.bind_eq_some.1 h
    obtain ⟨b, r2, hb, h⟩ := Parser.bind_eq_some.1 h
    split at h
    · cases h
      have := Header.readExact_length hb
      have := n.isLt
      exact ⟨by omega, by assumption⟩
    · cases h
  have raw : ∀ x a, PeerAddr.ofRaw x = some a → a.IsV4 := by
    intro x a h
    unfold PeerAddr.ofRaw at h
    split at h
    · cases h; trivial
    · cases h
  have feat : ∀ x f r, PeerFeature.parse x = some (f, r) → f.Sendable := by
    intro x f r h
    unfold PeerFeature.parse at h
    obtain ⟨_, r1, _, h⟩ := Parser.bind_eq_some.1 h
    obtain ⟨_, r2, _, h⟩ := Parser.bind_eq_some.1 h
    obtain ⟨buf, r3, _, h⟩ := Parser.bind_eq_some.1 h
    split at h
    · cases ha : PeerAddr.parse buf with
      | none => simp only [ha] at h; cases h
      | some q =>
        obtain ⟨a, r'⟩ := q
        simp only [ha] at h
        cases h
        unfold PeerAddr.parse at ha
        obtain ⟨x, r4, _, h⟩ := Parser.bind_eq_some.1 ha
        cases ho : PeerAddr.ofRaw x with
        | none => rw [ho] at h; cases h
        | some a' => rw [ho] at h; cases h; exact raw x _ ho
    · cases h
  unfold PeerSpec.parse at h
  obtain ⟨agent, r1, ha, h⟩ := Parser.bind_eq_some.1 h
  split at h
  · cases h
  rename_i hne
  obtain ⟨ver, r2, _, h⟩ := Parser.bind_eq_some.1 h
  obtain ⟨node, r3, hn, h⟩ := Parser.bind_eq_some.1 h
  obtain ⟨decl, r4, hd, h⟩ := Parser.bind_eq_some.1 h
  obtain ⟨n, r5, _, h⟩ := Parser.bind_eq_some.1 h
  have hdecl : ∀ a ∈ decl, a.IsV4 := by
    intro a hm
    unfold PeerSpec.getDeclared at hd
    split at hd
    · cases hd; cases hm
    · split at hd
      · split at hd
        · rename_i x r _
          simp only [Option.some.injEq, Prod.mk.injEq] at hd
          obtain ⟨hd, _⟩ := hd
          rw [← hd] at hm
          exact raw x a hm
        · cases hd; cases hm
      · cases hd; cases hm
  split at h
  · cases h
    exact ⟨⟨hne, str _ _ _ ha⟩, str _ _ _ hn, hdecl, fun l hl => by cases hl⟩
  · rename_i hn0
    obtain ⟨l, r6, hl, h⟩ := Parser.bind_eq_some.1 h
    cases h
    refine ⟨⟨hne, str _ _ _ ha⟩, str _ _ _ hn, hdecl, fun l' hl' => ?_⟩
    cases hl'
    have hlen := replicateP_length _ _ _ _ hl
    have := n.isLt
    have : n.toNat ≠ 0 := fun hc => hn0 (by apply BitVec.eq_of_toNat_eq; rw [hc]; rfl)
    exact ⟨by omega, by omega, SigmaBoolean.replicateP_forall feat _ _ _ _ hl⟩

/-- C47: what the writer refuses: names above 255 bytes and IPv6 addresses.  (An empty agent name is not refused, see below.) -/
theorem C47_refused (s : PeerSpec) (h : 255 < s.agentName.length ∨ 255 < s.nodeName.length ∨ (∃ a ∈ s.declaredAddr, ¬a.IsV4) ∨
    ∃ l ∈ s.features, ∃ f ∈ l, ¬f.Sendable) : s.ser = none := by
  have feats : ∀ l : List PeerFeature, (∃ f ∈ l, ¬f.Sendable) → PeerSpec.serFeatures l = none := by
    intro l
    induction l with
    | nil => rintro ⟨f, hf, _⟩; cases hf
    | cons g l ih =>
      rintro ⟨f, hf, hns⟩
      unfold PeerSpec.serFeatures
      rcases List.mem_cons.1 hf with rfl | hf
      · obtain ⟨a⟩ := f
        have : (PeerFeature.localAddress a).ser = none := by
          simp only [PeerFeature.ser]
          rw [(C47_addr a).2 hns]
          rfl
        rw [this]
        rfl
      · rw [ih ⟨f, hf, hns⟩]
        cases g.ser <;> rfl
  unfold PeerSpec.ser
  rcases h with h | h | ⟨a, h, hv⟩ | ⟨l, h, hf⟩
  · rw [show putShortString s.agentName = none by simp [putShortString]; omega]
    rfl
  · rw [show putShortString s.nodeName = none by simp [putShortString]; omega]
    cases putShortString s.agentName <;> rfl
  · rw [show PeerSpec.serDeclared s.declaredAddr = none by
      cases hd : s.declaredAddr with
      | none => rw [hd] at h; cases h
      | some b =>
        rw [hd] at h
        cases h
        simp only [PeerSpec.serDeclared]
        rw [(C47_addr _).2 hv]
        rfl]
    cases putShortString s.agentName <;> cases putShortString s.nodeName <;> rfl
  · cases hfs : s.features with
    | none => rw [hfs] at h; cases h
    | some l' =>
      rw [hfs] at h
      cases h
      simp only [feats _ hf]
      cases putShortString s.agentName <;> cases putShortString s.nodeName <;> cases PeerSpec.serDeclared s.declaredAddr <;> rfl

example : ∃ l ∈ (some [PeerFeature.localAddress (.v6 1 80 0 0)]), ∃ f ∈ l, ¬f.Sendable := by
  simp [PeerFeature.Sendable, PeerAddr.IsV4]

/-- C47 fails for an empty agent name: it is written, but nobody can read the result. -/
theorem C47_violation_agent (utf8 : Bytes → Bool) (stuck : Bytes → Bytes) (v : ProtocolVersion) :
    ∃ b, (PeerSpec.mk [] v [] none none).ser = some b ∧ ∀ rest, PeerSpec.parse utf8 stuck (b ++ rest) = none := by
  refine ⟨[0] ++ v.ser ++ [0] ++ [0] ++ [0], rfl, fun rest => ?_⟩
  unfold PeerSpec.parse
  cases hu : utf8 [] with
  | false =>
    rw [Parser.bind_none]
    show (if utf8 [] = true then _ else _ : Parser Bytes) _ = none
    rw [hu]
    rfl
  | true =>
    rw [Parser.bind_some (a := []) (s' := v.ser ++ [0] ++ [0] ++ [0] ++ rest), if_pos rfl]
    · rfl
    · show (if utf8 [] = true then (pure [] : Parser Bytes) else _) _ = _
      rw [hu]
      simp

/-- C47: malformed input that is accepted.  A declared address with a port above 65535 is read as "no address", without an error,
and reading goes on behind it. -/
theorem C47_violation_port (stuck : Bytes → Bytes) (size a b c d : Byte) (port : BitVec 32) (hp : 2 ^ 16 ≤ port.toNat) (rest : Bytes) :
    PeerSpec.getDeclared stuck ([1, size, a, b, c, d] ++ putU32 port ++ rest) = some (none, rest) := by
  have h3 : PeerAddr.parseRaw (a :: b :: c :: d :: (putU32 port ++ rest)) = some (((a, b, c, d), port), rest) := by
    unfold PeerAddr.parseRaw
    rw [Parser.bind_some (getU8_cons _ _), Parser.bind_some (getU8_cons _ _), Parser.bind_some (getU8_cons _ _),
        Parser.bind_some (getU8_cons _ _), Parser.bind_some (getU32_put _ _)]
    rfl
  unfold PeerSpec.getDeclared
  simp only [List.append_assoc, List.cons_append, List.nil_append]
  rw [if_pos trivial, Parser.bind_some (getU8_cons _ _), h3]
  unfold PeerAddr.ofRaw
  simp only
  rw [if_neg (by show ¬port.toNat < _; omega)]

example : 2 ^ 16 ≤ (65536 : BitVec 32).toNat := by decide

/-- C47: the size byte before a declared address and bytes behind the address inside a feature are not looked at: many byte strings
are read as one specification. -/
theorem C47_violation_ignored (stuck : Bytes → Bytes) (size : Byte) (o : PeerAddr) (h : o.IsV4) (b : Bytes) (hb : o.ser = some b)
    (rest : Bytes) : PeerSpec.getDeclared stuck ([1, size] ++ b ++ rest) = some (some o, rest) := by
  obtain ⟨b', x, h1, _, h2, h3⟩ := PeerAddr.raw_ser h
  rw [hb] at h1
  cases h1
  unfold PeerSpec.getDeclared
  simp only [List.append_assoc, List.cons_append, List.nil_append]
  rw [if_pos trivial, Parser.bind_some (getU8_cons _ _), h3 rest]
  simp only [h2]

/-! ## C62 -/

/-- What a caller does to the database. -/
inductive PeerOp where
  | add (p : PeerInfo)
  | remove (a : PeerAddr)

/-- One call; a call that returns `Err` changes nothing. -/
def PeerDb.step (d : PeerDb) : PeerOp → PeerDb
  | .add p => ((PeerDb.addOrUpdate d p).map Prod.fst).getD d
  | .remove a => (PeerDb.remove d a).getD d

/-- What `get_peer_by_addr` should say, from the history alone (latest call first): the information last added with that address,
unless a later call removed it. -/
def PeerOp.latest (a : PeerAddr) : List PeerOp → Option PeerInfo
  | [] => none
  | .add p :: l => if p.spec.addr = some a then some p else latest a l
  | .remove b :: l => if b = a then none else latest a l

/-- C62: after any sequence of calls, a lookup answers with the information last added under that address and not removed since. -/
theorem C62_history (l : List PeerOp) (a : PeerAddr) :
    PeerDb.getPeer (l.reverse.foldl PeerDb.step []) a = PeerOp.latest a l := by
  induction l with
  | nil => rfl
  | cons o l ih =>
    rw [List.reverse_cons, List.foldl_append]
    generalize l.reverse.foldl PeerDb.step [] = d at ih
    show PeerDb.getPeer (PeerDb.step d o) a = _
    unfold PeerDb.getPeer at ih ⊢
    cases o with
    | add p =>
      simp only [PeerDb.step, PeerDb.addOrUpdate, PeerOp.latest]
      cases hp : p.spec.addr with
      | none => simpa using ih
      | some b =>
        show FMap.get (FMap.insert d b p) a = _
        rw [FMap.get_insert, ih]
        simp
    | remove b =>
      simp only [PeerDb.step, PeerDb.remove, PeerOp.latest]
      cases hb : FMap.get d b with
      | none =>
        show FMap.get d a = _
        by_cases h : b = a
        · rw [if_pos h, ← h]; exact hb
        · rw [if_neg h]; exact ih
      | some q =>
        show FMap.get (FMap.erase d b) a = _
        rw [FMap.get_erase, ih]

/-- C62: in every database that calls can produce, each address has one entry, and the entry is one whose own address it is. -/
theorem C62_keys (l : List PeerOp) : FMap.Ok (l.foldl PeerDb.step []) ∧
    ∀ a p, (a, p) ∈ l.foldl PeerDb.step [] → p.spec.addr = some a := by
  have hok : ∀ (l : List PeerOp) (d : PeerDb), FMap.Ok d → FMap.Ok (l.foldl PeerDb.step d) := by
    intro l
    induction l with
    | nil => intro d h; exact h
    | cons o l ih =>
      intro d h
      refine ih _ ?_
      cases o with
      | add p =>
        simp only [PeerDb.step, PeerDb.addOrUpdate]
        cases p.spec.addr with
        | none => exact h
        | some b => exact h.insert b p
      | remove b =>
        simp only [PeerDb.step, PeerDb.remove]
        cases FMap.get d b with
        | none => exact h
        | some _ => exact h.erase b
  have h := hok l [] FMap.Ok.nil
  refine ⟨h, fun a p hm => ?_⟩
  have hg := (FMap.mem_iff_get h a p).1 hm
  have := C62_history l.reverse a
  rw [List.reverse_reverse] at this
  unfold PeerDb.getPeer at this
  rw [hg] at this
  have key : ∀ l : List PeerOp, PeerOp.latest a l = some p → p.spec.addr = some a := by
    intro l
    induction l with
    | nil => intro h; cases h
    | cons o l ih =>
      cases o with
      | add q =>
        intro h
        unfold PeerOp.latest at h
        split at h
        · cases h; assumption
        · exact ih h
      | remove b =>
        intro h
        unfold PeerOp.latest at h
        split at h
        · cases h
        · exact ih h
  exact key _ this.symm

/-- C62: the answers of the calls.  Adding is refused exactly for peers without a declared or local address, and otherwise returns what
a lookup would have found; removing is refused exactly when a lookup finds nothing. -/
theorem C62_answers (d : PeerDb) (p : PeerInfo) (a : PeerAddr) :
    ((PeerDb.addOrUpdate d p = none) ↔ p.spec.declaredAddr = none ∧ p.spec.localAddr = none) ∧
    (∀ d' old, PeerDb.addOrUpdate d p = some (d', old) → ∃ b, p.spec.addr = some b ∧ old = PeerDb.getPeer d b ∧
      PeerDb.getPeer d' b = some p) ∧
    ((PeerDb.remove d a = none) ↔ PeerDb.getPeer d a = none) := by
  refine ⟨?_, ?_, ?_⟩
  · unfold PeerDb.addOrUpdate PeerSpec.addr
    cases p.spec.declaredAddr <;> cases p.spec.localAddr <;> simp
  · intro d' old h
    unfold PeerDb.addOrUpdate at h
    cases hp : p.spec.addr with
    | none => rw [hp] at h; cases h
    | some b =>
      rw [hp] at h
      cases h
      refine ⟨b, rfl, rfl, ?_⟩
      unfold PeerDb.getPeer
      rw [FMap.get_insert, if_pos rfl]
  · unfold PeerDb.remove PeerDb.getPeer
    cases FMap.get d a <;> simp

/-- Two peers at one address: the later one is found, and after a removal nothing. -/
example : PeerDb.getPeer ([PeerOp.add ⟨peerExample, 0, none⟩, .add ⟨peerExample, 7, some .incoming⟩].foldl PeerDb.step []) (.v4 10 0 0 1 9030)
      = some ⟨peerExample, 7, some .incoming⟩ ∧
    PeerDb.getPeer ([PeerOp.add ⟨peerExample, 0, none⟩, .remove (.v4 10 0 0 1 9030)].foldl PeerDb.step []) (.v4 10 0 0 1 9030) = none := by
  decide

/-- C62: a peer made from an address alone is stored under that address. -/
theorem C62_from_addr (display : PeerAddr → Bytes) (unknown dash : Bytes) (d : PeerDb) (a : PeerAddr) :
    ∃ d' old, PeerDb.addOrUpdate d (PeerInfo.fromAddr display unknown dash a) = some (d', old) ∧
      PeerDb.getPeer d' a = some (PeerInfo.fromAddr display unknown dash a) := by
  refine ⟨_, _, rfl, ?_⟩
  unfold PeerDb.getPeer
  rw [FMap.get_insert, if_pos rfl]

end Verif
