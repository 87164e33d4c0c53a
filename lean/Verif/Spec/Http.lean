import Verif.Model.Http

/-!
# What a request should contain

Headers are functions from names to lists of values; every call on a builder is a change of such a function, of the body, the URL, the
mode, the credentials or the time limit.
-/

namespace Verif.Spec
open Http

/-- A header name: a token of RFC 7230, visible ASCII characters except delimiters. -/
def HeaderToken (s : Text) : Prop :=
  s ≠ [] ∧ s.length ≤ 65535 ∧ ∀ c ∈ s, 33 ≤ c.toNat ∧ c.toNat ≤ 126 ∧
    c ∉ ['"', '(', ')', ',', '/', ':', ';', '<', '=', '>', '?', '@', '[', '\\', ']', '{', '}']

/-- Characters of a header value that can be sent: printable ASCII, space and tab. -/
def Printable (s : Text) : Prop := ∀ c ∈ s, c.toNat = 9 ∨ 32 ≤ c.toNat ∧ c.toNat ≤ 126

/-- No control characters except tab. -/
def NoControls (s : Text) : Prop := ∀ c ∈ s, c.toNat = 9 ∨ 32 ≤ c.toNat ∧ c.toNat ≠ 127

/-- A header map: each name once, with at least one value. -/
structure MapOk (h : HeaderMap) : Prop where
  nodup : (h.map Prod.fst).Nodup
  nonempty : ∀ p ∈ h, p.2 ≠ []

/-- Values by name. -/
abbrev Headers := Text → List Text

/-- The values of a map: those in its entry. -/
def ofMap (h : HeaderMap) : Headers := fun n => ((h.find? fun p => p.1 == n).map Prod.snd).getD []

/-- The values of a name in a list of pairs as it is sent. -/
def ofPairs (l : List (Text × Text)) : Headers := fun n => (l.filter fun p => p.1 == n).map Prod.snd

/-- The call makes sense: its argument can be serialized, its header can be written. -/
def CallOk : Call → Prop
  | .query f => f ≠ none
  | .form b => b ≠ none
  | .json b => b ≠ none
  | .bearer t => NoControls t
  | .header k v => HeaderToken k ∧ Printable v
  | _ => True

/-- The headers after a call. -/
def askHeaders (f : Headers) : Call → Headers
  | .form _ => fun n => if n = "content-type".toList then ["application/x-www-form-urlencoded".toList] else f n
  | .json _ => fun n => if n = "content-type".toList then ["application/json".toList] else f n
  | .bearer t => fun n => if n = "authorization".toList then f n ++ ["Bearer ".toList ++ t] else f n
  | .header k v => fun n => if n = k.map Char.toLower then f n ++ [v] else f n
  | .headers h => fun n => if ofMap h n ≠ [] then ofMap h n else f n
  | _ => f

/-- The headers a sequence of calls asks for. -/
def askedHeaders (cs : List Call) : Headers := cs.foldl askHeaders fun _ => []

/-- The header maps among the calls are maps. -/
def MapsOk (cs : List Call) : Prop := ∀ h, Call.headers h ∈ cs → MapOk h

/-- The default headers that the owner of a client asked for: a later map replaces the names it has. -/
def askedDefaults (ms : List HeaderMap) : Headers :=
  ms.foldl (fun f m n => if ofMap m n ≠ [] then ofMap m n else f n) fun _ => []

/-- The headers that a request should have: those asked for by calls, defaults for the other names. -/
def wanted (ms : List HeaderMap) (cs : List Call) : Headers := fun n =>
  if askedHeaders cs n ≠ [] then askedHeaders cs n else askedDefaults ms n

/-- The body a call sets. -/
def bodyOf : Call → Option Bytes
  | .form b => b
  | .json b => b
  | .body b => some b
  | _ => none

/-- The time limit a call sets. -/
def limitOf : Call → Option Nat
  | .timeout t => some t
  | _ => none

/-- The credentials a call sets. -/
def credsOf : Call → Option Creds
  | .creds c => some c
  | _ => none

/-- The last of what some calls set. -/
def lastOf {α : Type} (f : Call → Option α) (cs : List Call) : Option α := (cs.filterMap f).getLast?

/-- The URL after the query calls. -/
def askedUrl (u : Text) (cs : List Call) : Text :=
  cs.foldl (fun u c => match c with
    | .query (some f) => f u
    | _ => u) u

/-- The client, then the calls on its request builder, then `send`. -/
abbrev sentBy (ms : List HeaderMap) (t : Option Nat) (hasHost : Text → Bool) (m u : Text) (cs : List Call) : Option Sent :=
  send (clientOf ms t) (cs.foldl step ((clientOf ms t).request hasHost m u))

/-- Values by name as they are sent: those asked for, else the last default. -/
abbrev carried (ms : List HeaderMap) (cs : List Call) : Headers := fun n =>
  if askedHeaders cs n ≠ [] then askedHeaders cs n else (askedDefaults ms n).getLast?.toList

end Verif.Spec
