import Verif.Proofs.NodeReq

set_option linter.unusedSimpArgs false
set_option linter.unusedVariables false

/-!
# C103: requests to a node
-/

namespace Verif
open Spec Http

/-- C103: the path of a request has the segments of the node's interface, and a proof of length zero has none. -/
theorem C103_path (q : NodeReq) (p : Text) : q.path = some p ↔ NodeReqOk q ∧ p = slashed (segments q) := by
  rcases path_slashed q with ⟨h, hn⟩ | ⟨h, ho⟩
  · rw [h]; simp [hn]
  · rw [h]; simp [ho, eq_comm]

example : (NodeReq.popow 7 6 [171, 1]).path = some "nipopow/proof/7/6/ab01".toList :=
  (C103_path _ _).2 ⟨⟨by decide, by decide⟩, by simp [slashed, segments, Json.hexEnc, Json.hexDigit, decimal, digitChar]⟩

/-- C103: different requests have different paths. -/
theorem C103_distinct (q q' : NodeReq) (p : Text) (h : q.path = some p) (h' : q'.path = some p) : q = q' := by
  obtain ⟨_, e⟩ := (C103_path q p).1 h
  obtain ⟨_, e'⟩ := (C103_path q' p).1 h'
  refine segments_inj (slashed_inj (segments_no_slash q) (segments_no_slash q') ?_ ?_ (e ▸ e'))
  · cases q <;> simp [segments]
  · cases q' <;> simp [segments]

example (a b c : Bytes) : (NodeReq.header a).path ≠ (NodeReq.txProof b c).path := by
  intro h
  have h1 := (C103_path (.header a) _).2 ⟨trivial, rfl⟩
  cases C103_distinct _ _ _ h1 (h ▸ h1)

/-- C103: a request is sent exactly if the address gives a URL with a host and the lengths are positive; no configuration of the key
or the time limit prevents it. -/
theorem C103_sent (base : PeerAddr → Text) (hasHost : Text → Bool) (n : NodeConf) (q : NodeReq) :
    (nodeRequest base hasHost n q).isSome ↔ NodeReqOk q ∧ hasHost (base n.addr ++ slashed (segments q)) = true := by
  by_cases ho : NodeReqOk q
  · rw [nodeRequest_eq base hasHost n q ho, nodeSent_isSome]; simp [ho]
  · rw [nodeRequest_none base hasHost n q ho]; simp [ho]

example (n : NodeConf) : nodeRequest (fun _ => ['h', '/']) (fun _ => true) n (.popow 0 6 []) = none := by
  rw [← Option.not_isSome_iff_eq_none, C103_sent]
  exact fun h => h.1.1 rfl

/-- C103: what is sent is a `GET` for the path under the address of the node, with the three headers and no body, in the default mode
and with the default credentials. -/
theorem C103_content (base : PeerAddr → Text) (hasHost : Text → Bool) (n : NodeConf) (q : NodeReq) (s : Sent)
    (h : nodeRequest base hasHost n q = some s) :
    s.method = "GET".toList ∧ s.url = base n.addr ++ slashed (segments q) ∧ s.noCors = false ∧ s.creds = none ∧ s.body = none ∧
      ∃ key, ∀ k, ofPairs s.headers k = ofMap (nodeHeaders key) k := by
  have ho : NodeReqOk q := ((C103_sent base hasHost n q).1 (by rw [h]; rfl)).1
  rw [nodeRequest_eq base hasHost n q ho] at h
  obtain ⟨h1, h2, h3, h4, h5, h6, _⟩ := (sent_all [] n.timeout hasHost _ _ _ (by simp) (nodeCalls_maps n)).2 s h
  refine ⟨h1, h2, ?_, h5, h6, apiHeader n, fun k => by rw [h3, nodeCalls_asked]⟩
  rw [Bool.eq_false_iff, Ne, h4]
  simp [nodeCalls]

example (s : Sent) (n : NodeConf) (h : nodeRequest (fun _ => ['h', '/']) (fun _ => true) n .info = some s) :
    s.url = "h/info".toList ∧ ofPairs s.headers "accept".toList = ["application/json".toList] := by
  obtain ⟨_, h2, _, _, _, key, h6⟩ := C103_content _ _ _ _ s h
  exact ⟨h2, by rw [h6]; rfl⟩

/-- C103, partial (a key with other characters is replaced, see the violation): the key sent is the one of the configuration; without
one it is the text `None`. -/
theorem C103_key_partial (base : PeerAddr → Text) (hasHost : Text → Bool) (n : NodeConf) (q : NodeReq) (s : Sent)
    (h : nodeRequest base hasHost n q = some s) (hk : ∀ k, n.apiKey = some k → Printable k) :
    ofPairs s.headers "api_key".toList = [n.apiKey.getD "None".toList] := by
  have ho : NodeReqOk q := ((C103_sent base hasHost n q).1 (by rw [h]; rfl)).1
  rw [nodeRequest_eq base hasHost n q ho] at h
  obtain ⟨_, _, h3, _⟩ := (sent_all [] n.timeout hasHost _ _ _ (by simp) (nodeCalls_maps n)).2 s h
  rw [h3, nodeCalls_asked]
  have e : apiHeader n = n.apiKey.getD "None".toList := by
    unfold apiHeader
    cases hn : n.apiKey with
    | none => rfl
    | some k =>
      have := hk k hn
      unfold headerValueStr
      simp only []
      rw [if_pos ((visible_all k).2 this)]; rfl
  rw [e]
  rfl

example (s : Sent) (a : PeerAddr) (h : nodeRequest (fun _ => ['h', '/']) (fun _ => true) ⟨a, some ['s', ' ', 'x'], none⟩ .info =
    some s) :
    ofPairs s.headers "api_key".toList = [['s', ' ', 'x']] :=
  C103_key_partial _ _ _ _ s h (by intro k hk; cases hk; unfold Printable; decide)

/-- C103, violation: a key with a character that cannot be in a header, such as a line break at its end or a letter beyond ASCII, is
replaced by the text `None` and the request is sent without any error. -/
theorem C103_key_violates (base : PeerAddr → Text) (hasHost : Text → Bool) (n : NodeConf) (q : NodeReq) (k : Text)
    (hk : n.apiKey = some k) (hp : ¬ Printable k) (ho : NodeReqOk q) (hh : hasHost (base n.addr ++ slashed (segments q)) = true) :
    ∃ s, nodeRequest base hasHost n q = some s ∧ ofPairs s.headers "api_key".toList = ["None".toList] := by
  have hs := (C103_sent base hasHost n q).2 ⟨ho, hh⟩
  obtain ⟨s, h⟩ := Option.isSome_iff_exists.1 hs
  refine ⟨s, h, ?_⟩
  rw [nodeRequest_eq base hasHost n q ho] at h
  obtain ⟨_, _, h3, _⟩ := (sent_all [] n.timeout hasHost _ _ _ (by simp) (nodeCalls_maps n)).2 s h
  rw [h3, nodeCalls_asked]
  have e : apiHeader n = "None".toList := by
    unfold apiHeader
    rw [hk]
    unfold headerValueStr
    simp only []
    rw [if_neg (fun x => hp ((visible_all k).1 x))]; rfl
  rw [e]
  rfl

example (a : PeerAddr) : ∃ s, nodeRequest (fun _ => ['h', '/']) (fun _ => true) ⟨a, some ['k', '\n'], none⟩ .info = some s ∧
    ofPairs s.headers "api_key".toList = ["None".toList] :=
  C103_key_violates _ _ _ _ ['k', '\n'] rfl (by unfold Printable; decide) trivial rfl

/-- C103, partial (limits of 2^31 milliseconds and more are not kept): the request is given up after the time of the configuration, in
whole milliseconds, else after 30 seconds. -/
theorem C103_limit_partial (base : PeerAddr → Text) (hasHost : Text → Bool) (n : NodeConf) (q : NodeReq) (s : Sent)
    (h : nodeRequest base hasHost n q = some s) (hl : ∀ t, n.timeout = some t → t < 2 ^ 31 * 1000000) :
    s.timer = some (((n.timeout.getD 30000000000) / 1000000 : Nat) : Int) := by
  have ho : NodeReqOk q := ((C103_sent base hasHost n q).1 (by rw [h]; rfl)).1
  rw [nodeRequest_eq base hasHost n q ho] at h
  obtain ⟨_, _, _, _, _, _, h7⟩ := (sent_all [] n.timeout hasHost _ _ _ (by simp) (nodeCalls_maps n)).2 s h
  rw [h7, show lastOf limitOf (nodeCalls n) = none from rfl, Option.getD_none]
  have : n.timeout.getD 30000000000 < 2 ^ 31 * 1000000 := by
    cases ht : n.timeout with
    | none => decide
    | some t => exact hl t ht
  unfold timerMillis
  rw [BitVec.toInt_ofNat', Int.bmod_eq_of_le (by omega) (by omega)]

example (s : Sent) (n : NodeConf) (hn : n.timeout = some 2500000000)
    (h : nodeRequest (fun _ => ['h', '/']) (fun _ => true) n .info = some s) : s.timer = some 2500 := by
  have := C103_limit_partial _ _ n _ s h (by intro t h; rw [hn] at h; cases h; decide)
  rw [hn] at this
  exact this

/-- C103, violation: a limit of a multiple of 2^32 milliseconds, about 50 days, gives the request no time at all. -/
theorem C103_limit_violates (base : PeerAddr → Text) (hasHost : Text → Bool) (n : NodeConf) (q : NodeReq) (s : Sent) (k : Nat)
    (h : nodeRequest base hasHost n q = some s) (ht : n.timeout = some (2 ^ 32 * k * 1000000)) : s.timer = some 0 := by
  have ho : NodeReqOk q := ((C103_sent base hasHost n q).1 (by rw [h]; rfl)).1
  rw [nodeRequest_eq base hasHost n q ho] at h
  obtain ⟨_, _, _, _, _, _, h7⟩ := (sent_all [] n.timeout hasHost _ _ _ (by simp) (nodeCalls_maps n)).2 s h
  rw [h7, show lastOf limitOf (nodeCalls n) = none from rfl, Option.getD_none, ht, Option.getD_some]
  unfold timerMillis
  rw [Nat.mul_div_cancel _ (by decide), BitVec.toInt_ofNat']
  simp [Int.bmod]

example (a : PeerAddr) : ∃ s, nodeRequest (fun _ => ['h', '/']) (fun _ => true) ⟨a, none, some (2 ^ 32 * 1 * 1000000)⟩ .info =
    some s ∧ s.timer = some 0 := by
  obtain ⟨s, h⟩ := Option.isSome_iff_exists.1 ((C103_sent (fun _ => ['h', '/']) (fun _ => true)
    ⟨a, none, some (2 ^ 32 * 1 * 1000000)⟩ .info).2 ⟨trivial, rfl⟩)
  exact ⟨s, h, C103_limit_violates _ _ _ _ s 1 h rfl⟩

end Verif
