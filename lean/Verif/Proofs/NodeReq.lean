import Verif.Spec.NodeReq
import Verif.Proofs.Http
import Verif.Proofs.DerivationPath

set_option linter.unusedSimpArgs false
set_option linter.unusedVariables false

/-!
# Lemmas on requests to a node
-/

namespace Verif.Http
open Spec

theorem hexEnc_inj {a b : Bytes} (h : Json.hexEnc a = Json.hexEnc b) : a = b := by
  have := hexDec_hexEnc a
  rw [h, hexDec_hexEnc] at this
  exact (Option.some.inj this).symm

theorem hexEnc_no_slash (b : Bytes) : '/' ∉ Json.hexEnc b := by
  have d : ∀ n : Fin 16, '/' ≠ Json.hexDigit n := by decide
  induction b with
  | nil => simp [Json.hexEnc]
  | cons x b ih =>
    have hx := x.isLt
    rw [Json.hexEnc, List.mem_cons, List.mem_cons, not_or, not_or]
    exact ⟨d ⟨x.toNat / 16, by omega⟩, d ⟨x.toNat % 16, by omega⟩, ih⟩

theorem decimal_no_slash (n : Nat) : '/' ∉ decimal n := by
  intro h
  have := (decimal_digits n) '/' h
  revert this
  decide

theorem segments_no_slash (q : NodeReq) : ∀ s ∈ segments q, '/' ∉ s := by
  intro s hs
  cases q with
  | info => simp only [segments, List.mem_singleton] at hs; subst hs; decide
  | header id =>
    simp only [segments, List.mem_cons, List.not_mem_nil, or_false] at hs
    rcases hs with rfl | rfl | rfl
    · decide
    · exact hexEnc_no_slash id
    · decide
  | popow m k id =>
    simp only [segments, List.mem_cons, List.not_mem_nil, or_false] at hs
    rcases hs with rfl | rfl | rfl | rfl | rfl
    · decide
    · decide
    · exact decimal_no_slash _
    · exact decimal_no_slash _
    · exact hexEnc_no_slash id
  | txProof id tx =>
    simp only [segments, List.mem_cons, List.not_mem_nil, or_false] at hs
    rcases hs with rfl | rfl | rfl | rfl
    · decide
    · exact hexEnc_no_slash id
    · decide
    · exact hexEnc_no_slash tx

theorem slash_split : ∀ {a b c d : Text}, '/' ∉ a → '/' ∉ b → a ++ '/' :: c = b ++ '/' :: d → a = b ∧ c = d
  | [], [], _, _, _, _, h => ⟨rfl, by simpa using h⟩
  | [], x :: b, _, _, _, hb, h => by
    simp only [List.nil_append, List.cons_append, List.cons.injEq] at h
    exact absurd (by rw [h.1]; simp) hb
  | x :: a, [], _, _, ha, _, h => by
    simp only [List.nil_append, List.cons_append, List.cons.injEq] at h
    exact absurd (by simp [h.1]) ha
  | x :: a, y :: b, _, _, ha, hb, h => by
    simp only [List.cons_append, List.cons.injEq] at h
    obtain ⟨rfl, h⟩ := h
    obtain ⟨rfl, h'⟩ := slash_split (fun m => ha (List.mem_cons_of_mem _ m)) (fun m => hb (List.mem_cons_of_mem _ m)) h
    exact ⟨rfl, h'⟩

theorem slashed_inj : ∀ {a b : List Text}, (∀ s ∈ a, '/' ∉ s) → (∀ s ∈ b, '/' ∉ s) → a ≠ [] → b ≠ [] → slashed a = slashed b → a = b
  | [], _, _, _, ha, _, _ => absurd rfl ha
  | _, [], _, _, _, hb, _ => absurd rfl hb
  | [s], [t], _, _, _, _, h => by simpa [slashed] using h
  | [s], t :: u :: l, ha, _, _, _, h => by
    rw [slashed, slashed] at h
    exact absurd (by rw [h]; simp) (ha s List.mem_cons_self)
  | t :: u :: l, [s], _, hb, _, _, h => by
    rw [slashed, slashed] at h
    exact absurd (by rw [← h]; simp) (hb s List.mem_cons_self)
  | s :: s' :: l, t :: t' :: l', ha, hb, _, _, h => by
    rw [slashed, slashed] at h
    obtain ⟨rfl, h'⟩ := slash_split (ha s List.mem_cons_self) (hb t List.mem_cons_self) h
    rw [slashed_inj (fun x hx => ha x (List.mem_cons_of_mem _ hx)) (fun x hx => hb x (List.mem_cons_of_mem _ hx))
      (by simp) (by simp) h']

theorem path_slashed (q : NodeReq) : q.path = none ∧ ¬ NodeReqOk q ∨ q.path = some (slashed (segments q)) ∧ NodeReqOk q := by
  cases q with
  | info => exact Or.inr ⟨rfl, trivial⟩
  | header id =>
    refine Or.inr ⟨?_, trivial⟩
    simp [NodeReq.path, segments, slashed, kBlocksPath, kHeaderPath]
  | popow m k id =>
    by_cases h : m = 0 ∨ k = 0
    · exact Or.inl ⟨by simp only [NodeReq.path, if_pos h], fun x => h.elim x.1 x.2⟩
    · refine Or.inr ⟨?_, not_or.1 h⟩
      simp only [NodeReq.path, if_neg h]
      simp [segments, slashed, kPopowPath]
  | txProof id tx =>
    refine Or.inr ⟨?_, trivial⟩
    simp [NodeReq.path, segments, slashed, kBlocksPath, kProofForPath]

theorem segments_inj {q q' : NodeReq} (h : segments q = segments q') : q = q' := by
  cases q <;> cases q' <;> simp [segments] at h
  · rfl
  · rw [hexEnc_inj h]
  · obtain ⟨h1, h2, h3⟩ := h
    rw [BitVec.eq_of_toNat_eq (decimal_inj h1), BitVec.eq_of_toNat_eq (decimal_inj h2), hexEnc_inj h3]
  · rw [hexEnc_inj h.1, hexEnc_inj h.2]

theorem buildClient_eq (n : NodeConf) : buildClient n = clientOf [] n.timeout := by
  unfold buildClient
  cases n.timeout <;> rfl

theorem apiHeader_printable (n : NodeConf) : Printable (apiHeader n) := by
  have hN : Printable kNone := (visible_all _).1 (by decide)
  unfold apiHeader
  cases n.apiKey with
  | none => exact hN
  | some k =>
    simp only []
    unfold headerValueStr
    by_cases h : k.all visible = true
    · rw [if_pos h]; exact (visible_all _).1 h
    · rw [if_neg h]; exact hN

theorem nodeCalls_ok (n : NodeConf) : ∀ c ∈ nodeCalls n, CallOk c := by
  have tok : ∀ k ∈ [kAccept, kApiKey, kContentType], HeaderToken k := by unfold HeaderToken; decide
  have hj : Printable kJson := (visible_all _).1 (by decide)
  intro c hc
  simp only [nodeCalls, List.mem_cons, List.not_mem_nil, or_false] at hc
  rcases hc with rfl | rfl | rfl
  · exact ⟨tok _ (by simp), hj⟩
  · exact ⟨tok _ (by simp), apiHeader_printable n⟩
  · exact ⟨tok _ (by simp), hj⟩

theorem nodeCalls_maps (n : NodeConf) : MapsOk (nodeCalls n) := by
  intro h hh
  simp [nodeCalls] at hh

theorem ofMap_three (a b c : Text) (x y z : List Text) (k : Text) :
    ofMap [(a, x), (b, y), (c, z)] k = if a = k then x else if b = k then y else if c = k then z else [] := by
  rw [ofMap_cons, ofMap_cons, ofMap_cons, ofMap_nil]

theorem asked_three (a b c : Text) (x y z k : Text) (h1 : a.map Char.toLower ≠ b.map Char.toLower)
    (h2 : a.map Char.toLower ≠ c.map Char.toLower) (h3 : b.map Char.toLower ≠ c.map Char.toLower) :
    askedHeaders [.header a x, .header b y, .header c z] k =
      ofMap [(a.map Char.toLower, [x]), (b.map Char.toLower, [y]), (c.map Char.toLower, [z])] k := by
  rw [ofMap_three]
  show (if k = c.map Char.toLower then (if k = b.map Char.toLower then (if k = a.map Char.toLower then [] ++ [x] else []) ++ [y]
    else (if k = a.map Char.toLower then [] ++ [x] else [])) ++ [z]
    else (if k = b.map Char.toLower then (if k = a.map Char.toLower then [] ++ [x] else []) ++ [y]
    else (if k = a.map Char.toLower then [] ++ [x] else []))) = _
  generalize a.map Char.toLower = a at *
  generalize b.map Char.toLower = b at *
  generalize c.map Char.toLower = c at *
  by_cases e1 : k = a
  · subst e1; rw [if_neg h2, if_neg h1, if_pos rfl, if_pos rfl]; rfl
  · by_cases e2 : k = b
    · subst e2; rw [if_neg h3, if_pos rfl, if_neg e1, if_neg (Ne.symm e1), if_pos rfl]; rfl
    · by_cases e3 : k = c
      · subst e3; rw [if_pos rfl, if_neg e2, if_neg e1, if_neg (Ne.symm e1), if_neg (Ne.symm e2), if_pos rfl]; rfl
      · rw [if_neg e3, if_neg e2, if_neg e1, if_neg (Ne.symm e1), if_neg (Ne.symm e2), if_neg (Ne.symm e3)]

theorem nodeCalls_asked (n : NodeConf) (k : Text) : carried [] (nodeCalls n) k = ofMap (nodeHeaders (apiHeader n)) k := by
  have e : askedHeaders (nodeCalls n) k = ofMap (nodeHeaders (apiHeader n)) k :=
    asked_three kAccept kApiKey kContentType kJson (apiHeader n) kJson k (by decide) (by decide) (by decide)
  generalize ofMap (nodeHeaders (apiHeader n)) k = l at *
  show (if _ then _ else _) = _
  rw [e]
  cases l with
  | nil => rfl
  | cons a l => rfl

theorem three_values {a b c x y v k : Text} (h : v ∈ ofMap [(a, [x]), (b, [y]), (c, [x])] k) : v = x ∨ v = y := by
  rw [ofMap_three] at h
  split at h
  · exact Or.inl (List.mem_singleton.1 h)
  · split at h
    · exact Or.inr (List.mem_singleton.1 h)
    · split at h
      · exact Or.inl (List.mem_singleton.1 h)
      · cases h

theorem nodeHeaders_values {key k v : Text} (h : v ∈ ofMap (nodeHeaders key) k) : v = "application/json".toList ∨ v = key :=
  three_values h

theorem nodeRequest_eq (base : PeerAddr → Text) (hasHost : Text → Bool) (n : NodeConf) (q : NodeReq) (h : NodeReqOk q) :
    nodeRequest base hasHost n q = sentBy [] n.timeout hasHost ['G', 'E', 'T'] (base n.addr ++ slashed (segments q)) (nodeCalls n) := by
  unfold nodeRequest
  rcases path_slashed q with ⟨_, hn⟩ | ⟨e, _⟩
  · exact absurd h hn
  · rw [e]
    simp only [buildClient_eq]

theorem nodeRequest_none (base : PeerAddr → Text) (hasHost : Text → Bool) (n : NodeConf) (q : NodeReq) (h : ¬ NodeReqOk q) :
    nodeRequest base hasHost n q = none := by
  unfold nodeRequest
  rcases path_slashed q with ⟨e, _⟩ | ⟨_, ho⟩
  · rw [e]
  · exact absurd ho h

theorem nodeSent_isSome (hasHost : Text → Bool) (n : NodeConf) (u : Text) :
    (sentBy [] n.timeout hasHost ['G', 'E', 'T'] u (nodeCalls n)).isSome ↔ hasHost u = true := by
  rw [(sent_all [] n.timeout hasHost _ _ _ (by simp) (nodeCalls_maps n)).1]
  refine ⟨fun h => h.1, fun h => ⟨h, nodeCalls_ok n, ?_⟩⟩
  intro k v hv
  rw [nodeCalls_asked] at hv
  rcases nodeHeaders_values hv with rfl | rfl
  · exact (visible_all _).1 (by decide)
  · exact apiHeader_printable n

end Verif.Http
