import Verif.Proofs.Http

set_option linter.unusedSimpArgs false
set_option linter.unusedVariables false

/-!
# C102: a request carries what its builder was asked for
-/

namespace Verif
open Spec Http

/-- C102: a request is sent exactly if the URL has a host, every call on the builder made sense, and every header can be written; an
error in any call is never lost, whatever calls follow. -/
theorem C102_accepts (ms : List HeaderMap) (t : Option Nat) (hasHost : Text → Bool) (m u : Text) (cs : List Call)
    (hm : ∀ h ∈ ms, MapOk h) (hc : MapsOk cs) :
    (sentBy ms t hasHost m u cs).isSome ↔
      hasHost u = true ∧ (∀ c ∈ cs, CallOk c) ∧ ∀ n, ∀ v ∈ carried ms cs n, Printable v :=
  (sent_all ms t hasHost m u cs hm hc).1

example : (sentBy [] none (fun _ => true) ['G', 'E', 'T'] ['u'] [.json none, .json (some [1])]).isSome = false := by
  rw [Bool.eq_false_iff]
  intro h
  exact ((C102_accepts [] none (fun _ => true) ['G', 'E', 'T'] ['u'] [.json none, .json (some [1])]
    (by simp) (by intro h hh; simp at hh)).1 h).2.1 (.json none) (by simp) rfl

/-- C102, partial (of several default values of a name only one is sent, see the violation): the headers of a request are those asked
for by the calls on its builder, and the defaults of the client for the names that no call mentions. -/
theorem C102_headers_partial (ms : List HeaderMap) (t : Option Nat) (hasHost : Text → Bool) (m u : Text) (cs : List Call) (s : Sent)
    (hm : ∀ h ∈ ms, MapOk h) (hc : MapsOk cs) (h1 : ∀ h ∈ ms, ∀ p ∈ h, p.2.length = 1)
    (h : sentBy ms t hasHost m u cs = some s) (n : Text) : ofPairs s.headers n = wanted ms cs n := by
  rw [((sent_all ms t hasHost m u cs hm hc).2 s h).2.2.1 n]
  have single : (askedDefaults ms n).length ≤ 1 := by
    have : ∀ (ms : List HeaderMap) (f : Headers), (∀ h ∈ ms, ∀ p ∈ h, p.2.length = 1) → (f n).length ≤ 1 →
        (ms.foldl (fun f m n => if ofMap m n ≠ [] then ofMap m n else f n) f n).length ≤ 1 := by
      intro ms
      induction ms with
      | nil => exact fun f _ hf => hf
      | cons a ms ih =>
        intro f ha hf
        refine ih _ (fun h hh => ha h (List.mem_cons_of_mem _ hh)) ?_
        by_cases e : ofMap a n = []
        · simpa [e] using hf
        · simp only [ne_eq, e, not_false_eq_true, if_true]
          unfold ofMap
          cases hf : a.find? fun p => p.1 == n with
          | none => simp
          | some p => simp [ha a List.mem_cons_self p (List.mem_of_find?_eq_some hf)]
    exact this ms _ h1 (by simp)
  show (if _ then _ else _) = if _ then _ else _
  congr 1
  cases hd : askedDefaults ms n with
  | nil => rfl
  | cons a l =>
    rw [hd, List.length_cons] at single
    have : l = [] := List.eq_nil_of_length_eq_zero (by omega)
    subst this; rfl

/-- Two calls for the same name, one default that is overridden and one that is kept. -/
example (s : Sent) (h : sentBy [[(['a'], [['0']]), (['b'], [['9']])]] none (fun _ => true) ['G'] ['u']
    [.header ['A'] ['1'], .header ['a'] ['2']] = some s) :
    ofPairs s.headers ['a'] = [['1'], ['2']] ∧ ofPairs s.headers ['b'] = [['9']] := by
  have hm : ∀ h ∈ [[(['a'], [['0']]), (['b'], [['9']])]], MapOk h := by
    intro h hh; rw [List.mem_singleton] at hh; subst hh; exact ⟨by decide, by decide⟩
  have := C102_headers_partial _ _ _ _ _ _ s hm (by intro h hh; simp at hh) (by decide) h
  exact ⟨by rw [this]; decide, by rw [this]; decide⟩

/-- C102, violation: of several values of a default header only the last is sent. -/
theorem C102_defaults_violates (k v w : Text) (vs : List Text) (t : Option Nat) (hasHost : Text → Bool) (m u : Text) (cs : List Call)
    (s : Sent) (hc : MapsOk cs) (hk : askedHeaders cs k = []) (h : sentBy [[(k, v :: vs ++ [w])]] t hasHost m u cs = some s) :
    wanted [[(k, v :: vs ++ [w])]] cs k = v :: vs ++ [w] ∧ ofPairs s.headers k = [w] := by
  have hm : ∀ h ∈ [[(k, v :: vs ++ [w])]], MapOk h := by
    intro h hh; rw [List.mem_singleton] at hh; subst hh; exact ⟨by simp, by simp⟩
  have ha : askedDefaults [[(k, v :: vs ++ [w])]] k = v :: vs ++ [w] := by simp [askedDefaults, ofMap]
  rw [((sent_all _ t hasHost m u cs hm hc).2 s h).2.2.1 k]
  unfold wanted carried
  rw [hk, ha]
  refine ⟨by simp, ?_⟩
  rw [if_neg (by simp), List.getLast?_append]
  rfl

example : ∃ s, sentBy [[(['a'], [['1'], ['2']])]] none (fun _ => true) ['G'] ['u'] [] = some s ∧ ofPairs s.headers ['a'] = [['2']] :=
  ⟨_, rfl, (C102_defaults_violates ['a'] ['1'] ['2'] [] none (fun _ => true) ['G'] ['u'] [] _ (by intro h hh; simp at hh) rfl rfl).2⟩

/-- C102: the method is that of the request; the URL is changed by queries only, in their order; the request asks for no CORS exactly
if a call did; the credentials are the last ones asked for; the body is the last one set, and an empty one is not sent. -/
theorem C102_rest (ms : List HeaderMap) (t : Option Nat) (hasHost : Text → Bool) (m u : Text) (cs : List Call) (s : Sent)
    (hm : ∀ h ∈ ms, MapOk h) (hc : MapsOk cs) (h : sentBy ms t hasHost m u cs = some s) :
    s.method = m ∧ s.url = askedUrl u cs ∧ (s.noCors = true ↔ Call.noCors ∈ cs) ∧ s.creds = lastOf credsOf cs ∧
      ∀ b, s.body = some b ↔ lastOf bodyOf cs = some b ∧ b ≠ [] := by
  obtain ⟨h1, h2, _, h3, h4, h5, _⟩ := (sent_all ms t hasHost m u cs hm hc).2 s h
  refine ⟨h1, h2, h3, h4, fun b => ?_⟩
  rw [h5, Option.filter_eq_some_iff]
  simp

example (s : Sent) (h : sentBy [] none (fun _ => true) ['P'] ['u']
    [.query (some fun u => u ++ ['?']), .body [1], .json (some [2]), .query (some fun u => u ++ ['x'])] = some s) :
    s.url = ['u', '?', 'x'] ∧ s.body = some [2] := by
  obtain ⟨_, h1, _, _, h2⟩ := C102_rest [] none _ _ _ _ s (by simp) (by intro h hh; simp at hh) h
  exact ⟨h1, (h2 _).2 ⟨rfl, by simp⟩⟩

/-- C102, partial (limits of 2^31 milliseconds and more are not kept, see the violation): a timer runs with the request; its length is
the last limit asked for, else that of the client, else 30 seconds, in whole milliseconds. -/
theorem C102_limit_partial (ms : List HeaderMap) (t : Option Nat) (hasHost : Text → Bool) (m u : Text) (cs : List Call) (s : Sent)
    (hm : ∀ h ∈ ms, MapOk h) (hc : MapsOk cs) (h : sentBy ms t hasHost m u cs = some s) (l : Nat)
    (hl : ((lastOf limitOf cs).or t).getD 30000000000 = l) (hs : l < 2 ^ 31 * 1000000) : s.timer = some ((l / 1000000 : Nat) : Int) := by
  rw [((sent_all ms t hasHost m u cs hm hc).2 s h).2.2.2.2.2.2]
  have : (lastOf limitOf cs).getD (t.getD 30000000000) = l := by
    rw [← hl]; cases lastOf limitOf cs <;> simp
  rw [this]
  unfold timerMillis
  have hlt : l / 1000000 < 2 ^ 31 := by omega
  rw [BitVec.toInt_ofNat', Int.bmod_eq_of_le (by omega) (by omega)]

example (s : Sent) (h : sentBy [] (some 5000000000) (fun _ => true) ['G'] ['u'] [.timeout 7000000000, .timeout 2500000000] = some s) :
    s.timer = some 2500 :=
  C102_limit_partial [] _ _ _ _ _ s (by simp) (by intro h hh; simp at hh) h 2500000000 rfl (by decide)

/-- C102, violation: a limit of 2^32 milliseconds gives a timer that fires at once, one of 2^31 milliseconds a negative timer, which
browsers take for zero. -/
theorem C102_limit_violates (ms : List HeaderMap) (t : Option Nat) (hasHost : Text → Bool) (m u : Text) (cs : List Call) (s : Sent)
    (hm : ∀ h ∈ ms, MapOk h) (hc : MapsOk cs) (k r : Nat) (hr : r < 2 ^ 32)
    (h : sentBy ms t hasHost m u (cs ++ [.timeout ((2 ^ 32 * k + r) * 1000000)]) = some s) :
    (r = 0 → s.timer = some 0) ∧ (2 ^ 31 ≤ r → ∃ z : Int, z < 0 ∧ s.timer = some z) := by
  have hc' : MapsOk (cs ++ [.timeout ((2 ^ 32 * k + r) * 1000000)]) := by
    intro h hh
    rcases List.mem_append.1 hh with hh | hh
    · exact hc h hh
    · simp at hh
  rw [((sent_all ms t hasHost m u _ hm hc').2 s h).2.2.2.2.2.2]
  have hl : lastOf limitOf (cs ++ [.timeout ((2 ^ 32 * k + r) * 1000000)]) = some ((2 ^ 32 * k + r) * 1000000) := by
    simp [lastOf, List.filterMap_append, limitOf]
  rw [hl, Option.getD_some]
  unfold timerMillis
  rw [Nat.mul_div_cancel _ (by decide), BitVec.toInt_ofNat']
  constructor
  · rintro rfl
    simp [Int.bmod]
  · intro h2
    refine ⟨_, ?_, rfl⟩
    rw [Int.bmod_def]
    split <;> omega

example : ∃ s, sentBy [] none (fun _ => true) ['G'] ['u'] [.timeout 4294967296000000] = some s ∧ s.timer = some 0 :=
  ⟨_, rfl, (C102_limit_violates [] none (fun _ => true) ['G'] ['u'] [] _ (by simp) (by intro h hh; simp at hh) 1 0 (by decide) rfl).1 rfl⟩

/-- C102: `replace_headers` never panics; the names of the second map get its values, the others keep theirs. -/
theorem C102_replace (d s : HeaderMap) (hd : MapOk d) (hs : MapOk s) :
    ∃ r, replaceHeaders d s = .ok r ∧ MapOk r ∧ ∀ n, ofMap r n = if ofMap s n ≠ [] then ofMap s n else ofMap d n := by
  obtain ⟨r, h1, h2, h3⟩ := replaceHeaders_ok d s
  exact ⟨r, h1, h2 hd, h3 hs⟩

example : ∃ r, replaceHeaders [(['a'], [['1'], ['2']]), (['b'], [['3']])] [(['a'], [['4'], ['5']])] = .ok r ∧
    ofMap r ['a'] = [['4'], ['5']] ∧ ofMap r ['b'] = [['3']] := by
  obtain ⟨r, h1, _, h3⟩ := C102_replace [(['a'], [['1'], ['2']]), (['b'], [['3']])] [(['a'], [['4'], ['5']])]
    ⟨by decide, by decide⟩ ⟨by decide, by decide⟩
  exact ⟨r, h1, by rw [h3]; decide, by rw [h3]; decide⟩

end Verif
