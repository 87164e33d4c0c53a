import Verif.Proofs.NodeResp

set_option linter.unusedSimpArgs false
set_option linter.unusedVariables false

/-!
# C93: the version of a node.  C94: the peers reported by a node
-/

namespace Verif
open Spec Json

/-! ## Versions -/

/-- C93 (the part that holds; for all versions it is false: `C93_patch_violates`, `C93_major_violates`).  `is_at_least_version_4_0_100`
compares the version `a.b.c` of a node, whatever is behind a dash, with 4.0.100 correctly for all numbers `a`, `b`, `c` with two kinds
of exceptions: 4.0.c for c from 2 to 9 and from 11 to 99, and majors of two and more digits that begin with 1, 2 or 3. -/
theorem C93_version_partial (n : NodeInfo) (sa sb sc tail : Text) (a b c : Nat) (h : VersionText sa sb sc tail a b c n.appVersion)
    (hpatch : a = 4 → b = 0 → c ≤ 1 ∨ c = 10 ∨ 100 ≤ c)
    (hmajor : 10 ≤ a → ∀ x, sa.head? = some x → 52 ≤ x.toNat) : n.isAtLeast40100 = true ↔ AtLeast40100 a b c := by
  obtain ⟨x, hx⟩ : ∃ x, sa.head? = some x := by
    cases sa with
    | nil => exact absurd rfl h.1.1
    | cons x s => exact ⟨x, rfl⟩
  have hv := version_lt h x hx
  have hxd := h.1.2.1 x (List.mem_of_mem_head? hx)
  have hm := decimal_head h.1 x hx
  unfold NodeInfo.isAtLeast40100 AtLeast40100
  rw [Bool.not_eq_true', ← Bool.not_eq_true, hv]
  have := fun h10 => hmajor h10 x hx
  omega

/-- The text `a.b.c` of a node. -/
example : VersionText ['4'] ['0'] ['1', '0', '2'] ['-', 'R', 'C'] 4 0 102 ['4', '.', '0', '.', '1', '0', '2', '-', 'R', 'C'] := by
  refine ⟨⟨by simp, ?_, rfl, by simp⟩, ⟨by simp, ?_, rfl, by simp⟩, ⟨by simp, ?_, rfl, by simp⟩, by simp, rfl⟩ <;> decide

example : (⟨[], ['4', '.', '0', '.', '1', '0', '2', '-', 'R', 'C']⟩ : NodeInfo).isAtLeast40100 = true ∧
    (⟨[], ['4', '.', '0', '.', '1', '0']⟩ : NodeInfo).isAtLeast40100 = false ∧ (⟨[], ['3', '.', '9', '9', '.', '1', '0', '0']⟩ : NodeInfo).isAtLeast40100 = false := by
  decide

/-- C93, violation: every node of a version 4.0.c with c from 2 to 9 or from 11 to 99 counts as at least 4.0.100, though it does not
know the rules of EIP-37. -/
theorem C93_patch_violates (n : NodeInfo) (sa sb sc tail : Text) (c : Nat) (h : VersionText sa sb sc tail 4 0 c n.appVersion)
    (hc : 2 ≤ c ∧ c ≤ 9 ∨ 11 ≤ c ∧ c ≤ 99) : n.isAtLeast40100 = true ∧ ¬ AtLeast40100 4 0 c := by
  obtain ⟨x, hx⟩ : ∃ x, sa.head? = some x := by
    cases sa with
    | nil => exact absurd rfl h.1.1
    | cons x s => exact ⟨x, rfl⟩
  have hv := version_lt h x hx
  have hxd := h.1.2.1 x (List.mem_of_mem_head? hx)
  have hm := decimal_head h.1 x hx
  unfold NodeInfo.isAtLeast40100 AtLeast40100
  rw [Bool.not_eq_true', ← Bool.not_eq_true, hv]
  omega

/-- Version 4.0.43, for instance. -/
example : VersionText ['4'] ['0'] ['4', '3'] [] 4 0 43 ['4', '.', '0', '.', '4', '3'] := by
  refine ⟨⟨by simp, ?_, rfl, by simp⟩, ⟨by simp, ?_, rfl, by simp⟩, ⟨by simp, ?_, rfl, by simp⟩, by simp, rfl⟩ <;> decide

/-- C93, violation: every node with a major version of two or more digits beginning with 1, 2 or 3 counts as older than 4.0.100. -/
theorem C93_major_violates (n : NodeInfo) (x : Char) (sa sb sc tail : Text) (a b c : Nat)
    (h : VersionText (x :: sa) sb sc tail a b c n.appVersion) (hsa : sa ≠ []) (hx : x.toNat ≤ 51) :
    n.isAtLeast40100 = false ∧ AtLeast40100 a b c := by
  have hv := version_lt h x rfl
  have hm := decimal_head h.1 x rfl
  have : a ≠ 4 ∧ 4 < a := by
    rcases hm with ⟨h1, _⟩ | ⟨_, h1⟩
    · exact absurd (List.cons.inj h1).2 hsa
    · omega
  unfold NodeInfo.isAtLeast40100 AtLeast40100
  exact ⟨by rw [Bool.not_eq_false', hv]; left; omega, .inl this.2⟩

/-- Version 10.0.0. -/
example : VersionText ['1', '0'] ['0'] ['0'] [] 10 0 0 ['1', '0', '.', '0', '.', '0'] := by
  refine ⟨⟨by simp, ?_, rfl, by simp⟩, ⟨by simp, ?_, rfl, by simp⟩, ⟨by simp, ?_, rfl, by simp⟩, by simp, rfl⟩ <;> decide

/-- C93: name and version of a node survive their JSON form. -/
theorem C93_json (n : NodeInfo) : readNodeInfo (writeNodeInfo n) = .ok n := rfl

example : readNodeInfo (.obj [(kAppVersion, .str ['5']), (['x'], .null), (kName, .str ['a'])]) = .ok ⟨['a'], ['5']⟩ := rfl

/-! ## Addresses -/

section
variable {U : Type}

/-- C94: exactly the ways in which nodes report an address are read, and what is read is that address: its text as the standard library
reads it, or the text without the brackets around an IPv6 address, behind a slash or not.  About the standard library it is only assumed
that there is no address with nothing in the brackets. -/
theorem C94_address (A : AddrText U) (hA : ∀ t, A.read ('[' :: ']' :: ':' :: t) = none) (s : Text) (a : PeerAddr) :
    parseReported A s = .ok a ↔ Reports A s a := by
  obtain ⟨t, ht⟩ := strip_exists s
  rw [parseReported_strip A ht, parseBare_iff A hA t a]
  constructor
  · intro h; exact ⟨t, ht, h⟩
  · rintro ⟨t', ht', h⟩
    rw [strip_unique ht ht']; exact h

/-- A reader that knows the addresses `1.2.3.4:80`, `[1:2]:80` and a link-local one. -/
def toyAddrText : AddrText Text where
  read t := if t = ['1', '.', '2', '.', '3', '.', '4', ':', '8', '0'] then some (.v4 1 2 3 4 80)
    else if t = ['[', '1', ':', '2', ']', ':', '8', '0'] then some (.v6 0x10002 80 0 0)
    else if t = ['[', '1', ':', '2', '%', '3', ']', ':', '8', '0'] then some (.v6 0x10002 80 0 3) else none
  print
    | .v4 .. => ['1', '.', '2', '.', '3', '.', '4', ':', '8', '0']
    | .v6 _ _ _ 0 => ['[', '1', ':', '2', ']', ':', '8', '0']
    | .v6 .. => ['[', '1', ':', '2', '%', '3', ']', ':', '8', '0']
  url t := if '%' ∈ t then none else some t

/-- It knows no address with nothing in the brackets. -/
example : ∀ t, toyAddrText.read ('[' :: ']' :: ':' :: t) = none := by
  intro t; simp [toyAddrText]

/-- The four ways to report an address. -/
example : parseReported toyAddrText ['/', '1', '.', '2', '.', '3', '.', '4', ':', '8', '0'] = .ok (.v4 1 2 3 4 80) ∧
    parseReported toyAddrText ['1', '.', '2', '.', '3', '.', '4', ':', '8', '0'] = .ok (.v4 1 2 3 4 80) ∧
    parseReported toyAddrText ['/', '1', ':', '2', ':', '8', '0'] = .ok (.v6 0x10002 80 0 0) ∧
    parseReported toyAddrText ['[', '1', ':', '2', ']', ':', '8', '0'] = .ok (.v6 0x10002 80 0 0) ∧
    parseReported toyAddrText ['/', '/', '1', ':', '2', ':', '8', '0'] = .err ∧ parseReported toyAddrText ['x', ':', '1'] = .err := by
  decide

/-- C94: an IPv6 address is read whether the node puts it into brackets or not, if the library itself does not read it without them. -/
theorem C94_brackets (A : AddrText U) (hA : ∀ t, A.read ('[' :: ']' :: ':' :: t) = none) (host port : Text) (a : PeerAddr)
    (h1 : A.read ('[' :: host ++ ']' :: ':' :: port) = some a) (hhost : ':' ∈ host) (hport : ':' ∉ port) (h2 : A.read (host ++ ':' :: port) = none) :
    parseReported A ('/' :: host ++ ':' :: port) = .ok a ∧ parseReported A ('/' :: '[' :: host ++ ']' :: ':' :: port) = .ok a :=
  ⟨(C94_address A hA _ _).2 ⟨_, .inl rfl, .inr ⟨h2, host, port, rfl, hhost, hport, h1⟩⟩, (C94_address A hA _ _).2 ⟨_, .inl rfl, .inl h1⟩⟩

example : toyAddrText.read ('[' :: ['1', ':', '2'] ++ ']' :: ':' :: ['8', '0']) = some (.v6 0x10002 80 0 0) ∧
    toyAddrText.read (['1', ':', '2'] ++ ':' :: ['8', '0']) = none := by decide

/-- C94: no text and no answer of a node makes the reader panic. -/
theorem C94_no_panic (A : AddrText U) (s : Text) (j : Json) : parseReported A s ≠ .panic ∧ readRestPeer A j ≠ .panic := by
  refine ⟨parseReported_np A s, ?_⟩
  have hreq : ∀ (n : List Text) (o : List (Text × Json)), req n o ≠ .panic := by
    intro n o; unfold req; split <;> simp
  have hbind : ∀ {α β : Type} (x : Outcome α) (f : α → Outcome β), x ≠ .panic → (∀ a, x = .ok a → f a ≠ .panic) → (x >>= f) ≠ .panic := by
    intro α β x f h1 h2
    cases x with
    | ok a => exact h2 a rfl
    | err => exact fun h => nomatch h
    | panic => exact absurd rfl h1
  have hstr : ∀ j : Json, readStr j ≠ .panic := by intro j; cases j <;> simp [readStr]
  have huint : ∀ (b : Nat) (j : Json), readUint b j ≠ .panic := by
    intro b j; unfold readUint; split
    · split <;> simp
    · simp
  have hdir : ∀ j : Json, readDir j ≠ .panic := by
    intro j; unfold readDir; split
    · split
      · simp
      · split <;> simp
    · simp
  cases j with
  | obj o =>
    unfold readRestPeer
    refine hbind _ _ (hbind _ _ (hreq _ _) fun j _ => hstr j) fun s _ => ?_
    refine hbind _ _ (parseReported_np A s) fun a _ => ?_
    refine hbind _ _ (hbind _ _ (hreq _ _) fun j _ => huint _ j) fun m _ => ?_
    refine hbind _ _ (hbind _ _ (hreq _ _) fun j _ => huint _ j) fun h _ => ?_
    refine hbind _ _ (hbind _ _ (hreq _ _) fun j _ => hstr j) fun n _ => ?_
    refine hbind _ _ (by unfold opt; split <;> simp) fun c _ => ?_
    cases c with
    | none => exact fun h => nomatch h
    | some j => exact hbind _ _ (hdir j) fun d _ => fun h => nomatch h
  | _ => exact fun h => nomatch h

example : readRestPeer toyAddrText .null = .err := rfl

/-- C94: a peer survives its JSON form if the text of its address is read as this address and does not begin with a slash. -/
theorem C94_json (A : AddrText U) (p : RestPeer) (h : A.read (A.print p.addr) = some p.addr) (hs : (A.print p.addr).head? ≠ some '/') :
    readRestPeer A (writeRestPeer A p) = .ok p := by
  have hp : parseReported A (A.print p.addr) = .ok p.addr := by
    rw [parseReported_strip A (.inr ⟨rfl, hs⟩), parseBare, h]
  have hm : readUint (2 ^ 64) (.num (.nat p.lastMessage.toNat)) = .ok p.lastMessage.toNat := readUint_nat p.lastMessage.isLt
  have hh : readUint (2 ^ 64) (.num (.nat p.lastHandshake.toNat)) = .ok p.lastHandshake.toNat := readUint_nat p.lastHandshake.isLt
  obtain ⟨a, m, l, n, c⟩ := p
  simp only at hp hm hh
  have key : ∀ j : Json, readRestPeer A (.obj [(kAddress, .str (A.print a)), (kLastMessage, .num (.nat m.toNat)),
      (kLastHandshake, .num (.nat l.toNat)), (kName, .str n), (kConnectionType, j)]) = (do
        let c ← opt [kConnectionType] [(kConnectionType, j)]
        match c with
        | none => pure ⟨a, m, l, n, none⟩
        | some j => do
          let d ← readDir j
          pure ⟨a, m, l, n, some d⟩) := by
    intro j
    have o : ∀ x y z w : Json, opt [kConnectionType] [(kAddress, x), (kLastMessage, y), (kLastHandshake, z), (kName, w), (kConnectionType, j)] =
        opt [kConnectionType] [(kConnectionType, j)] := fun _ _ _ _ => rfl
    unfold readRestPeer
    simp only []
    rw [o]
    refine Eq.trans (congrArg₂ Bind.bind (show _ = Outcome.ok (A.print a) from rfl) rfl) ?_
    rw [Outcome.bind_ok, hp, Outcome.bind_ok]
    refine Eq.trans (congrArg₂ Bind.bind (show _ = Outcome.ok m.toNat from hm) rfl) ?_
    rw [Outcome.bind_ok]
    refine Eq.trans (congrArg₂ Bind.bind (show _ = Outcome.ok l.toNat from hh) rfl) ?_
    rw [Outcome.bind_ok]
    refine Eq.trans (congrArg₂ Bind.bind (show _ = Outcome.ok n from rfl) rfl) ?_
    rw [Outcome.bind_ok]
    simp only [BitVec.ofNat_toNat, BitVec.setWidth_eq]
    rfl
  refine (key _).trans ?_
  cases c with
  | none => rfl
  | some d => cases d <;> rfl

example : toyAddrText.read (toyAddrText.print (.v6 0x10002 80 0 0)) = some (.v6 0x10002 80 0 0) ∧
    (toyAddrText.print (.v6 0x10002 80 0 0)).head? ≠ some '/' := by decide

/-- C94: the URL made of an address is that of its text, and there is a panic exactly if this is no URL. -/
theorem C94_url_partial (A : AddrText U) (a : PeerAddr) :
    (∀ u, asHttpUrl A a = .ok u ↔ A.url (kHttp ++ A.print a) = some u) ∧ (asHttpUrl A a = .panic ↔ A.url (kHttp ++ A.print a) = none) := by
  unfold asHttpUrl
  cases A.url (kHttp ++ A.print a) <;> simp

example : asHttpUrl toyAddrText (.v4 1 2 3 4 80) = .ok (kHttp ++ ['1', '.', '2', '.', '3', '.', '4', ':', '8', '0']) := by decide

/-- C94, violation: whenever the text of an address with a scope has a percent sign, and URLs have none in their host, a node can report an
address that is read and whose URL makes the caller panic. -/
theorem C94_scope_violates (A : AddrText U) (hA : ∀ t, A.read ('[' :: ']' :: ':' :: t) = none) (ip : BitVec 128) (port : BitVec 16)
    (flow scope : BitVec 32) (hread : A.read (A.print (.v6 ip port flow scope)) = some (.v6 ip port flow scope))
    (hprint : '%' ∈ A.print (.v6 ip port flow scope)) (hurl : ∀ t, '%' ∈ t → A.url (kHttp ++ t) = none) :
    ∃ s a, parseReported A s = .ok a ∧ asHttpUrl A a = .panic :=
  ⟨'/' :: A.print (.v6 ip port flow scope), _, (C94_address A hA _ _).2 ⟨_, .inl rfl, .inl hread⟩, (C94_url_partial A _).2.2 (hurl _ hprint)⟩

example : (∀ t, '%' ∈ t → toyAddrText.url (kHttp ++ t) = none) ∧ '%' ∈ toyAddrText.print (.v6 0x10002 80 0 3) ∧
    toyAddrText.read (toyAddrText.print (.v6 0x10002 80 0 3)) = some (.v6 0x10002 80 0 3) := by
  refine ⟨?_, by decide, by decide⟩
  intro t h; simp [toyAddrText, h]

end
end Verif
