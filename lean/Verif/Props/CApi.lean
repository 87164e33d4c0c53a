import Verif.Proofs.CApiNull

/-!
# C109: the C interface keeps to the rules of its pointers
-/

set_option linter.unusedSimpArgs false
set_option linter.unusedVariables false

namespace Verif
open CApi Spec.CApi

/-- An allocator: the address after the highest one in use. -/
def c109Env : Env where
  pick h := (h.map Prod.fst).foldr max 0 + 1
  fresh h := by
    rw [FMap.get_eq_none_iff]
    have key : ∀ l : List Nat, ∀ x ∈ l, x ≤ l.foldr max 0 := by
      intro l
      induction l with
      | nil => intro x hx; cases hx
      | cons y l ih =>
        intro x hx
        rcases List.mem_cons.1 hx with rfl | hx
        · exact Nat.le_max_left _ _
        · exact Nat.le_trans (ih x hx) (Nat.le_max_right _ _)
    intro hmem
    have := key _ _ hmem
    omega
  order := 2 ^ 255

/-- Three variables, one buffer with 32 bytes, a token id, an amount and an empty collection of tokens. -/
def c109Mem : Mem :=
  { heap := [(1, .val (.tokenId (List.replicate 32 7#8))), (2, .val (.tokenAmount 5)), (3, .coll .token [])]
    outs := [(0, none), (1, none), (2, none)]
    bufs := [(0, List.replicate 32 1#8)] }

theorem c109Mem_ok : MemOk c109Mem := by
  intro a o h
  have h2 := FMap.get_some_mem h
  simp only [c109Mem, List.mem_cons, List.not_mem_nil, or_false, Prod.mk.injEq] at h2
  rcases h2 with ⟨_, rfl⟩ | ⟨_, rfl⟩ | ⟨_, rfl⟩
  · simp [ObjOk, ValOk]
  · simp [ObjOk, ValOk]
  · intro v hv; cases hv

/-! ## Safety -/

/-- No call is undefined if the pointers to objects are null or to live objects of the right type and the variables for results are null
or there.  Partial: the variables and buffers that the library uses without looking (`Arg.rawOut`, `Arg.buf`, `Arg.str`) must not be null;
`C109_null_ub_violates` says what happens otherwise. -/
theorem C109_no_ub_partial (E : Env) (m : Mem) (hm : MemOk m) (c : Call) (h : ∀ x ∈ args c, x.Fine m) : exec E c m ≠ .ub :=
  exec_no_ub hm c h

example : exec c109Env (.tokenNew (some 1) (some 2) none) c109Mem ≠ .ub :=
  C109_no_ub_partial _ _ c109Mem_ok _ (by
    simp only [args, List.mem_cons, List.not_mem_nil, or_false, forall_eq_or_imp, forall_eq, Arg.Fine]
    exact ⟨.inr ⟨1, _, rfl, rfl, rfl⟩, .inr ⟨2, _, rfl, rfl, rfl⟩, .inl trivial⟩)

/-- Null for a buffer, a C string or a result that is written without a check is undefined: an empty byte array from a null pointer (which
is how Swift and many others pass an empty array), a parsed or random key without a place to put it, a text without a place to put it. -/
theorem C109_null_ub_violates (E : Env) (m : Mem) (out : Ptr) (w : Nat) :
    exec E (.byteArrayFromRawParts none 0 out) m = .ub ∧
    exec E (.secretKeyGenerateRandom w none) m = .ub ∧
    exec E (.boxIdFromStr none out) m = .ub ∧ exec E (.tokenIdFromStr none out) m = .ub ∧
    (∀ a b, FMap.get m.bufs a = some b → 32 ≤ b.length → beNat (b.take 32) < E.order →
      exec E (.secretKeyFromBytes (some a) none) m = .ub) ∧
    (∀ a d, FMap.get m.heap a = some (.val (.tokenId d)) → exec E (.tokenIdToStr (some a) none) m = .ub) ∧
    (∀ a d, FMap.get m.heap a = some (.val (.boxId d)) → exec E (.boxIdToBytes (some a) none) m = .ub) := by
  refine ⟨rfl, rfl, rfl, rfl, ?_, ?_, ?_⟩
  · intro a b hb hn hq
    simp [exec, secretKeyFromBytes, cApiFrom, bind_apply, rawParts_some hb hn, hq, rawOut]
  · intro a d h
    simp [exec, strOut, idToStr, unwrap_apply, bind_apply, readVal_some (k := .tokenId) h rfl, pure_apply, rawOut]
  · intro a d h
    simp [exec, valToBytes, unwrap_apply, bind_apply, readVal_some (k := .boxId) h rfl, copyOut]

example : exec c109Env (.secretKeyFromBytes (some 0) none) c109Mem = .ub :=
  (C109_null_ub_violates c109Env c109Mem none 0).2.2.2.2.1 0 _ rfl (by simp) (by decide +kernel)

/-- A null pointer where an object or a variable is expected: the functions with a place for an error return an error naming the first such
argument, make nothing else, and leave variables and buffers as they are.  Partial: the functions without such a place panic
(`C109_null_panic_violates`). -/
theorem C109_null_partial (E : Env) (m : Mem) (c : Call) (n : String) (h : ∀ x ∈ args c, x.Fine m)
    (hn : (args c).findSome? Arg.isNull = some n) (hr : Reports c) :
    ∃ r a, exec E c m = .done (.ok r) { m with heap := FMap.insert m.heap a (.error (.invalidArgument n)) } ∧ errorOf r = some a ∧
      ¬ Live m a := by
  obtain ⟨r, h1, h2, _⟩ := (exec_null (E := E) c h hn).1 hr
  exact ⟨r, E.pick m.heap, h1, h2, by simp [Live, E.fresh]⟩

example : ∃ r a, exec c109Env (.boxValueSumOf none none none) c109Mem =
    .done (.ok r) { c109Mem with heap := FMap.insert c109Mem.heap a (.error (.invalidArgument "box_value0_ptr")) } ∧
    errorOf r = some a ∧ ¬ Live c109Mem a :=
  C109_null_partial _ _ _ _ (by
    simp only [args, List.mem_cons, List.not_mem_nil, or_false, forall_eq_or_imp, forall_eq, Arg.Fine]
    exact ⟨.inl trivial, .inl trivial, .inl trivial⟩) rfl trivial

/-- The functions without a place for an error panic when they get null: inside a function with C linkage that ends the process. -/
theorem C109_null_panic_violates (E : Env) (m : Mem) (c : Call) (n : String) (h : ∀ x ∈ args c, x.Fine m)
    (hn : (args c).findSome? Arg.isNull = some n) (hr : ¬ Reports c) : exec E c m = .panic :=
  (exec_null (E := E) c h hn).2 hr

example : exec c109Env (.eq .token none none) c109Mem = .panic :=
  C109_null_panic_violates _ _ _ "x_ptr" (by
    simp only [args, List.mem_cons, List.not_mem_nil, or_false, forall_eq_or_imp, forall_eq, Arg.Fine]
    exact ⟨.inl trivial, .inl trivial⟩) rfl (fun h => h)

example : exec c109Env (.tokenNew (some 1) (some 2) none) c109Mem = .panic := rfl

/-- The bytes of a key are the one buffer for which null is looked at: the caller gets an error. -/
theorem C109_key_null (E : Env) (m : Mem) (out : Ptr) :
    ∃ a, ¬ Live m a ∧ exec E (.secretKeyFromBytes none out) m =
      .done (.ok (.errPtr (some a))) { m with heap := FMap.insert m.heap a (.error (.misc "bytes_ptr is null")) } :=
  ⟨E.pick m.heap, by simp [Live, E.fresh], rfl⟩

/-- A memory in which the address after the highest is 4. -/
example : exec c109Env (.secretKeyFromBytes none none) c109Mem =
    .done (.ok (.errPtr (some 4))) { c109Mem with heap := FMap.insert c109Mem.heap 4 (.error (.misc "bytes_ptr is null")) } := rfl

/-! ## What is made -/

/-- A call that can make its object makes exactly this: the object at an address not in use before, its pointer in the variable of the
caller, no error, nothing else changed. -/
theorem C109_makes (E : Env) (m : Mem) (hm : MemOk m) (c : Call) (o : Addr) (obj : Obj) (h : Makes E m c o obj)
    (hx : IsVar m (some o)) :
    ∃ r a, exec E c m =
        .done (.ok r) { heap := FMap.insert m.heap a obj, outs := FMap.insert m.outs o (some a), bufs := m.bufs } ∧
      ¬ Live m a ∧ (r = .unit ∨ r = .errPtr none ∨ r = .option true none) := by
  obtain ⟨b, x, hb, hx⟩ := hx
  cases hb
  obtain ⟨r, h1, h2⟩ := exec_makes hm h hx
  exact ⟨r, E.pick m.heap, h1, by simp [Live, E.fresh], h2⟩

example : ∃ r a, exec c109Env (.tokenNew (some 1) (some 2) (some 0)) c109Mem =
    .done (.ok r) { heap := FMap.insert c109Mem.heap a (.val (.token (List.replicate 32 7#8) 5)),
                    outs := FMap.insert c109Mem.outs 0 (some a), bufs := c109Mem.bufs } ∧
    ¬ Live c109Mem a ∧ (r = .unit ∨ r = .errPtr none ∨ r = .option true none) :=
  C109_makes _ _ c109Mem_ok _ _ _ (.tokenNew 0 rfl rfl) ⟨0, none, rfl, rfl⟩

/-- A function with a place for an error that makes nothing: either it is the reading of a collection past its end, which says "none" and
changes nothing, or there is an error object, whose pointer is returned, and nothing else has changed. -/
theorem C109_makes_not (E : Env) (m m' : Mem) (hm : MemOk m) (c : Call) (r : CRet) (hr : Reports c)
    (hno : ∀ o obj, ¬ Makes E m c o obj) (h : exec E c m = .done (.ok r) m') :
    (∃ k p i out vs, c = .collGet k (some p) i out ∧ FMap.get m.heap p = some (.coll k vs) ∧ vs.length ≤ i ∧
        r = .option false none ∧ m' = m) ∨
      ∃ a e, errorOf r = some a ∧ ¬ Live m a ∧ m' = { m with heap := FMap.insert m.heap a (.error e) } := by
  obtain ⟨y, hy, he⟩ := exec_effect hm c h
  cases hy
  cases he with
  | same hfr hh ho he hs hn => exact .inl (hn hr)
  | freed hf hl he hs => cases c <;> simp_all [Frees, Reports]
  | added hc hp hv hk he hs => subst hc; exact hr.elim
  | made hmk hx he hs => exact absurd hmk (hno _ _)
  | @err e hr hok he hs => exact .inr ⟨_, e, he, by simp [Live, E.fresh], rfl⟩
  | str hfr hnr he hs => exact absurd hr hnr

example : ∃ a e, errorOf (.errPtr (some 4)) = some a ∧ ¬ Live c109Mem a ∧
    (exec c109Env (.boxValueFromI64 10799#64 (some 0)) c109Mem =
      .done (.ok (.errPtr (some 4))) { c109Mem with heap := FMap.insert c109Mem.heap a (.error e) }) :=
  ⟨4, .misc "box value out of bounds", rfl, fun h => h rfl, rfl⟩

/-! ## What stays -/

/-- A call leaves every object alone that it does not delete or add to: whatever pointers the caller holds stay good. -/
theorem C109_frame (E : Env) (m m' : Mem) (hm : MemOk m) (c : Call) (r : Except CErr CRet) (h : exec E c m = .done r m') (a : Addr)
    (o : Obj) (ha : FMap.get m.heap a = some o) (hf : ¬ Frees c a) (hadd : ¬ AddsTo c a) : FMap.get m'.heap a = some o := by
  obtain ⟨y, _, he⟩ := exec_effect hm c h
  exact he.frame ha hf hadd

example (r : Except CErr CRet) (m' : Mem) (h : exec c109Env (.tokenNew (some 1) (some 2) (some 0)) c109Mem = .done r m') :
    FMap.get m'.heap 3 = some (.coll .token []) :=
  C109_frame _ _ _ c109Mem_ok _ _ h 3 _ rfl (fun h => h) (fun h => h)

/-- The same for a whole program. -/
theorem C109_frame_run (E : Env) (cs : List Call) (m m' : Mem) (hm : MemOk m) (r : Except CErr Unit)
    (h : runCalls E cs m = .done r m') (a : Addr) (o : Obj) (ha : FMap.get m.heap a = some o)
    (hf : ∀ c ∈ cs, ¬ Frees c a ∧ ¬ AddsTo c a) : MemOk m' ∧ FMap.get m'.heap a = some o := by
  induction cs generalizing m with
  | nil => cases h; exact ⟨hm, ha⟩
  | cons c cs ih =>
    obtain ⟨y, m1, h1, he, h2⟩ := runCalls_cons hm h
    exact ih m1 (he.memOk hm) h2 (he.frame ha (hf c (by simp)).1 (hf c (by simp)).2) fun c' hc' => hf c' (by simp [hc'])

/-- Delete the id and the amount after making a token of them, at address 4. -/
def c109Prog : List Call :=
  [.tokenNew (some 1) (some 2) (some 0), .collAdd .token (some 4) (some 3), .delete .tokenId (some 1), .delete .tokenAmount (some 2),
   .collAdd .token (some 4) (some 3), .collGet .token (some 3) 1 (some 1), .collLen .token (some 3)]

example : ∃ m', runCalls c109Env c109Prog c109Mem = .done (.ok ()) m' := ⟨_, rfl⟩

/-- A program leaves behind what was there and what it was told about: an object live after a call was live before and not deleted, or is
new and its pointer went to the caller, as error, as text, or in the variable for the result.  Nothing else is allocated and kept. -/
theorem C109_no_leak (E : Env) (m m' : Mem) (hm : MemOk m) (c : Call) (r : CRet) (h : exec E c m = .done (.ok r) m') (a : Addr)
    (ha : Live m' a) :
    (Live m a ∧ ¬ Frees c a) ∨
      (¬ Live m a ∧ (errorOf r = some a ∨ stringOf r = some a ∨ ∃ o obj, Makes E m c o obj ∧ FMap.get m'.outs o = some (some a))) := by
  obtain ⟨y, hy, he⟩ := exec_effect hm c h
  cases hy
  exact he.live ha

example : ∃ m', exec c109Env (.tokenNew (some 1) (some 2) (some 0)) c109Mem = .done (.ok .unit) m' ∧ Live m' 4 :=
  ⟨_, rfl, by unfold Live; decide +kernel⟩

/-- Deleting: the object is gone, everything else is as before, and a second deletion is undefined; null is allowed and does nothing. -/
theorem C109_delete (E : Env) (m : Mem) (k : Kind) :
    exec E (.delete k none) m = .done (.ok .unit) m ∧ exec E (.collDelete k none) m = .done (.ok .unit) m ∧
    exec E (.deleteError none) m = .done (.ok .unit) m ∧ exec E (.deleteString none) m = .done (.ok .unit) m ∧
    (∀ a v, FMap.get m.heap a = some (.val v) → v.kind = k →
      exec E (.delete k (some a)) m = .done (.ok .unit) { m with heap := FMap.erase m.heap a }) ∧
    (∀ a vs, FMap.get m.heap a = some (.coll k vs) →
      exec E (.collDelete k (some a)) m = .done (.ok .unit) { m with heap := FMap.erase m.heap a }) ∧
    (∀ a, ¬ Live m a → exec E (.delete k (some a)) m = .ub ∧ exec E (.collDelete k (some a)) m = .ub) ∧
    (∀ a e, FMap.get m.heap a = some (.error e) →
      exec E (.deleteError (some a)) m = .done (.ok .unit) { m with heap := FMap.erase m.heap a }) ∧
    (∀ a t, FMap.get m.heap a = some (.cstr t) →
      exec E (.deleteString (some a)) m = .done (.ok .unit) { m with heap := FMap.erase m.heap a }) := by
  refine ⟨rfl, rfl, rfl, rfl, ?_, ?_, ?_, ?_, ?_⟩
  · intro a v h hk
    simp [exec, bind_apply, deletePtr, free, h, hk, pure_apply]
  · intro a vs h
    simp [exec, bind_apply, collectionDelete, free, h, pure_apply]
  · intro a h
    have h0 : FMap.get m.heap a = none := by
      unfold Live at h; exact Classical.not_not.1 h
    constructor <;> simp [exec, bind_apply, deletePtr, collectionDelete, free, h0]
  · intro a e h
    simp [exec, bind_apply, CApi.deleteError, free, h, pure_apply]
  · intro a t h
    simp [exec, bind_apply, CApi.deleteString, free, h, pure_apply]

example : exec c109Env (.delete .tokenAmount (some 2)) c109Mem =
    .done (.ok .unit) { c109Mem with heap := FMap.erase c109Mem.heap 2 } :=
  (C109_delete c109Env c109Mem .tokenAmount).2.2.2.2.1 2 (.tokenAmount 5) rfl rfl

/-! ## What is read -/

/-- The functions that read give what is in the object and change nothing: length, number (as `i64`, exact), comparison by contents. -/
theorem C109_reads (E : Env) (m : Mem) (hm : MemOk m) :
    (∀ k p vs, FMap.get m.heap p = some (.coll k vs) → exec E (.collLen k (some p)) m = .done (.ok (.num vs.length)) m) ∧
    (∀ p n, FMap.get m.heap p = some (.val (.boxValue n)) → exec E (.boxValueAsI64 (some p)) m = .done (.ok (.num n)) m) ∧
    (∀ p n, FMap.get m.heap p = some (.val (.tokenAmount n)) → exec E (.tokenAmountAsI64 (some p)) m = .done (.ok (.num n)) m) ∧
    (∀ k p q x y, FMap.get m.heap p = some (.val x) → x.kind = k → FMap.get m.heap q = some (.val y) → y.kind = k →
      exec E (.eq k (some p) (some q)) m = .done (.ok (.bool (decide (x = y)))) m) := by
  refine ⟨?_, ?_, ?_, ?_⟩
  · intro k p vs h
    simp [exec, bind_apply, unwrap_apply, collectionLen, readColl_some h, pure_apply]
  · intro p n h
    have hn : n < 2 ^ 63 := (hm _ _ h).2
    simp [exec, bind_apply, unwrap_apply, amountAsI64, readVal_some (k := .boxValue) h rfl, pure_apply, Val.amount, toInt_small hn]
  · intro p n h
    have hn : n < 2 ^ 63 := (hm _ _ h).2
    simp [exec, bind_apply, unwrap_apply, amountAsI64, readVal_some (k := .tokenAmount) h rfl, pure_apply, Val.amount, toInt_small hn]
  · intro k p q x y hp hx hq hy
    simp [exec, bind_apply, unwrap_apply, derefEq, readVal_some hp hx, readVal_some hq hy, pure_apply]

example : exec c109Env (.tokenAmountAsI64 (some 2)) c109Mem = .done (.ok (.num 5)) c109Mem :=
  (C109_reads _ _ c109Mem_ok).2.2.1 2 5 rfl

/-- The bytes of an id or of a key: 32 bytes of the buffer are written, the rest of it, the other buffers and everything else stay. -/
theorem C109_to_bytes (E : Env) (m : Mem) (hm : MemOk m) (p b : Addr) (d old : Bytes) (hb : FMap.get m.bufs b = some old)
    (hl : 32 ≤ old.length) (c : Call)
    (hc : (c = .boxIdToBytes (some p) (some b) ∧ FMap.get m.heap p = some (.val (.boxId d))) ∨
      (c = .secretKeyToBytes (some p) (some b) ∧ FMap.get m.heap p = some (.val (.secretKey d)))) :
    exec E c m = .done (.ok .unit) { m with bufs := FMap.insert m.bufs b (d ++ old.drop 32) } ∧ (d ++ old.drop 32).length = old.length := by
  rcases hc with ⟨rfl, h⟩ | ⟨rfl, h⟩
  · have h32 : d.length = 32 := hm _ _ h
    simp [exec, valToBytes, unwrap_apply, bind_apply, readVal_some (k := .boxId) h rfl, copyOut, hb, Val.digest, h32, hl, pure_apply]
  · have h32 : d.length = 32 := hm _ _ h
    simp [exec, valToBytes, unwrap_apply, bind_apply, readVal_some (k := .secretKey) h rfl, copyOut, hb, Val.digest, h32, hl, pure_apply]

/-- A key and two buffers, one longer than needed. -/
def c109Keys : Mem :=
  { heap := [(1, .val (.secretKey (List.replicate 32 9#8)))], outs := [], bufs := [(0, List.replicate 34 1#8), (1, [2#8])] }

example : exec c109Env (.secretKeyToBytes (some 1) (some 0)) c109Keys = .done (.ok .unit)
    { c109Keys with bufs := FMap.insert c109Keys.bufs 0 (List.replicate 32 9#8 ++ [1#8, 1#8]) } := rfl

theorem c109_noNul {n : String} (hn : Char.ofNat 0 ∉ n.toList) : Char.ofNat 0 ∉ errText (.invalidArgument n) := by
  have h0 : Char.ofNat 0 ∉ "invalid argument: ".toList := by decide +kernel
  unfold errText
  generalize "invalid argument: ".toList = t at h0
  intro h
  rcases List.mem_append.1 h with h1 | h1
  · exact h0 h1
  · exact hn h1

theorem c109_errText {E : Env} {m : Mem} {p : Addr} {e : CErr} (h : FMap.get m.heap p = some (.error e))
    (hn : Char.ofNat 0 ∉ errText e) :
    exec E (.errorToString (some p)) m =
      .done (.ok (.str (some (E.pick m.heap)))) { m with heap := FMap.insert m.heap (E.pick m.heap) (.cstr (errText e)) } := by
  simp only [exec, bind_apply, CApi.errorToString, h, newCString, if_neg hn, alloc, pure_apply]

/-- The text of an error, and of no error. -/
theorem C109_error_text (E : Env) (m : Mem) (hm : MemOk m) :
    (∃ a, ¬ Live m a ∧
      exec E (.errorToString none) m = .done (.ok (.str (some a))) { m with heap := FMap.insert m.heap a (.cstr "success".toList) }) ∧
    ∀ p n, FMap.get m.heap p = some (.error (.invalidArgument n)) →
      ∃ a, ¬ Live m a ∧ exec E (.errorToString (some p)) m =
        .done (.ok (.str (some a))) { m with heap := FMap.insert m.heap a (.cstr ("invalid argument: ".toList ++ n.toList)) } := by
  constructor
  · refine ⟨E.pick m.heap, by simp [Live, E.fresh], ?_⟩
    rfl
  · intro p n h
    refine ⟨E.pick m.heap, by simp [Live, E.fresh], ?_⟩
    have hn : Char.ofNat 0 ∉ n.toList := hm _ _ h
    exact c109_errText h (c109_noNul hn)

/-- The error of a missing argument. -/
def c109Err : Mem := { heap := [(1, .error (.invalidArgument "elem_out"))], outs := [], bufs := [] }

example : ∃ m', exec c109Env (.errorToString (some 1)) c109Err = .done (.ok (.str (some 2))) m' ∧
    FMap.get m'.heap 2 = some (.cstr ("invalid argument: ".toList ++ "elem_out".toList)) := ⟨_, rfl, rfl⟩

/-! ## Collections -/

/-- What a collection holds after any program that does not delete it or the added elements: what it held, then copies of the elements
added by this program, in order.  What else the program makes, reads or deletes has no effect on it. -/
theorem C109_contents (E : Env) (cs : List Call) (m m' : Mem) (hm : MemOk m) (r : Except CErr Unit)
    (h : runCalls E cs m = .done r m') (p : Addr) (k : Kind) (vs : List Val) (hp : FMap.get m.heap p = some (.coll k vs))
    (hf : ∀ c ∈ cs, ¬ Frees c p ∧ ∀ e, some e ∈ addedTo p cs → ¬ Frees c e) :
    ∃ ws, FMap.get m'.heap p = some (.coll k (vs ++ ws)) ∧
      List.Forall₂ (fun e v => ∃ a, e = some a ∧ FMap.get m'.heap a = some (.val v)) (addedTo p cs) ws := by
  induction cs generalizing m vs with
  | nil => cases h; exact ⟨[], by simpa using hp, .nil⟩
  | cons c cs ih =>
    obtain ⟨y, m1, h1, he, h2⟩ := runCalls_cons hm h
    have hsub : ∀ e, some e ∈ addedTo p cs → some e ∈ addedTo p (c :: cs) := by
      intro e hx
      cases c <;> simp only [addedTo] <;> try exact hx
      split <;> simp [hx]
    have hf' : ∀ c' ∈ cs, ¬ Frees c' p ∧ ∀ e, some e ∈ addedTo p cs → ¬ Frees c' e := fun c' hc' =>
      ⟨(hf c' (by simp [hc'])).1, fun e hx => (hf c' (by simp [hc'])).2 e (hsub e hx)⟩
    rcases he.coll hp (hf c (by simp)).1 with ⟨hna, hp1⟩ | ⟨e, v, rfl, hv, hv1, hp1⟩
    · obtain ⟨ws, h3, h4⟩ := ih m1 (he.memOk hm) h2 vs hp1 hf'
      refine ⟨ws, h3, ?_⟩
      have : addedTo p (c :: cs) = addedTo p cs := by
        cases c <;> simp only [addedTo]
        rw [if_neg]
        exact hna
      rw [this]; exact h4
    · obtain ⟨ws, h3, h4⟩ := ih m1 (he.memOk hm) h2 (vs ++ [v]) hp1 hf'
      refine ⟨v :: ws, by simpa using h3, ?_⟩
      have hadd : addedTo p (.collAdd k (some e) (some p) :: cs) = some e :: addedTo p cs := by simp [addedTo]
      rw [hadd]
      refine .cons ⟨e, rfl, ?_⟩ h4
      have hfr : ∀ c' ∈ cs, ¬ Frees c' e := fun c' hc' => (hf c' (by simp [hc'])).2 e (by rw [hadd]; simp)
      have hmono : ∀ (l : List Call) (n : Mem), MemOk n → FMap.get n.heap e = some (.val v) → (∀ c' ∈ l, ¬ Frees c' e) →
          runCalls E l n = .done r m' → FMap.get m'.heap e = some (.val v) := by
        intro l
        induction l with
        | nil => intro n _ hn _ hr; cases hr; exact hn
        | cons c l ihl =>
          intro n hn hx hfl hr
          obtain ⟨y', n1, _, he', hr'⟩ := runCalls_cons hn hr
          exact ihl n1 (he'.memOk hn) (he'.frameVal hx (hfl c (by simp))) (fun c' hc' => hfl c' (by simp [hc'])) hr'
      exact hmono cs m1 (he.memOk hm) hv1 hfr h2

example (m' : Mem) (r : Except CErr Unit) (h : runCalls c109Env c109Prog c109Mem = .done r m') :
    ∃ ws, FMap.get m'.heap 3 = some (.coll .token ([] ++ ws)) ∧
      List.Forall₂ (fun e v => ∃ a, e = some a ∧ FMap.get m'.heap a = some (.val v)) [some 4, some 4] ws :=
  C109_contents _ c109Prog _ _ c109Mem_ok _ h 3 .token [] rfl (by
    simp [c109Prog, Frees, addedTo])

/-- An element taken out of a collection is a copy: deleting the collection afterwards, or adding to it, leaves it as it is. -/
theorem C109_get_copy (E : Env) (m : Mem) (hm : MemOk m) (k : Kind) (p o : Addr) (i : Nat) (vs : List Val) (v : Val)
    (hp : FMap.get m.heap p = some (.coll k vs)) (hi : vs[i]? = some v) (ho : IsVar m (some o)) :
    ∃ a m', exec E (.collGet k (some p) i (some o)) m = .done (.ok (.option true none)) m' ∧ FMap.get m'.outs o = some (some a) ∧
      a ≠ p ∧ FMap.get m'.heap a = some (.val v) ∧ FMap.get m'.heap p = some (.coll k vs) ∧
      ∀ cs r m'', runCalls E cs m' = .done r m'' → (∀ c ∈ cs, ¬ Frees c a) → FMap.get m''.heap a = some (.val v) := by
  obtain ⟨b, x, hb, hx⟩ := ho
  cases hb
  obtain ⟨r, h1, h2⟩ := exec_makes (E := E) hm (.collGet o hp hi) hx
  have hpick : E.pick m.heap ≠ p := by
    intro e
    have := E.fresh m.heap
    rw [e, hp] at this
    cases this
  have hr : r = .option true none := by
    have h3 := h1
    simp [exec, collectionGet, bind_apply, readColl_some hp, outPtr_some hx, hi, give, alloc, setOut, pure_apply] at h3
    exact h3.1.symm
  have hm' : MemOk (given E m o (.val v)) := by
    obtain ⟨y, hy, he⟩ := exec_effect hm _ h1
    exact he.memOk hm
  have hv : FMap.get (given E m o (.val v)).heap (E.pick m.heap) = some (.val v) := by
    show FMap.get (FMap.insert m.heap _ _) _ = _
    rw [FMap.get_insert, if_pos rfl]
  refine ⟨E.pick m.heap, given E m o (.val v), hr ▸ h1, ?_, hpick, hv, ?_, ?_⟩
  · show FMap.get (FMap.insert m.outs _ _) _ = _
    rw [FMap.get_insert, if_pos rfl]
  · show FMap.get (FMap.insert m.heap _ _) _ = _
    rw [FMap.get_insert, if_neg hpick, hp]
  · intro cs
    generalize given E m o (.val v) = n at hm' hv
    induction cs generalizing n with
    | nil => intro r m'' h _; cases h; exact hv
    | cons c cs ih =>
      intro r m'' h hf
      obtain ⟨y, n1, _, he, h2⟩ := runCalls_cons hm' h
      exact ih n1 (he.memOk hm') (he.frameVal hv (hf c (by simp))) r m'' h2 fun c' hc' => hf c' (by simp [hc'])

/-- A collection with two tokens. -/
def c109Two : Mem :=
  { heap := [(3, .coll .token [.token (List.replicate 32 7#8) 5, .token (List.replicate 32 8#8) 6])], outs := [(0, none)], bufs := [] }

theorem c109Two_ok : MemOk c109Two := by
  intro a o h
  have h2 := FMap.get_some_mem h
  simp only [c109Two, List.mem_cons, List.not_mem_nil, or_false, Prod.mk.injEq] at h2
  obtain ⟨_, rfl⟩ := h2
  simp [ObjOk, ValOk, Val.kind]

example := C109_get_copy c109Env c109Two c109Two_ok .token 3 0 1 _ (.token (List.replicate 32 8#8) 6) rfl rfl ⟨0, none, rfl, rfl⟩

/-- A token and its parts: the id and the amount a token is made of are those it gives back, whatever happens to the originals. -/
theorem C109_token_round_trip (E : Env) (m : Mem) (hm : MemOk m) (i n o1 o2 o3 : Addr) (d : Bytes) (x : Nat)
    (hi : FMap.get m.heap i = some (.val (.tokenId d))) (hn : FMap.get m.heap n = some (.val (.tokenAmount x)))
    (h1 : IsVar m (some o1)) (h2 : IsVar m (some o2)) (h3 : IsVar m (some o3)) :
    ∃ m1 t, exec E (.tokenNew (some i) (some n) (some o1)) m = .done (.ok .unit) m1 ∧ FMap.get m1.outs o1 = some (some t) ∧
      ∃ m2 r2, exec E (.tokenGetId (some t) (some o2)) m1 = .done (.ok r2) m2 ∧
        (∃ a, FMap.get m2.outs o2 = some (some a) ∧ FMap.get m2.heap a = some (.val (.tokenId d))) ∧
      ∃ m3 r3, exec E (.tokenGetAmount (some t) (some o3)) m2 = .done (.ok r3) m3 ∧
        ∃ a, FMap.get m3.outs o3 = some (some a) ∧ FMap.get m3.heap a = some (.val (.tokenAmount x)) := by
  obtain ⟨_, x1, hb, hx1⟩ := h1; cases hb
  obtain ⟨_, x2, hb, hx2⟩ := h2; cases hb
  obtain ⟨_, x3, hb, hx3⟩ := h3; cases hb
  have hg : ∀ (m : Mem) o obj, FMap.get (given E m o obj).heap (E.pick m.heap) = some obj ∧
      FMap.get (given E m o obj).outs o = some (some (E.pick m.heap)) := by
    intro m o obj
    constructor
    · show FMap.get (FMap.insert m.heap _ _) _ = _
      rw [FMap.get_insert, if_pos rfl]
    · show FMap.get (FMap.insert m.outs _ _) _ = _
      rw [FMap.get_insert, if_pos rfl]
  have hv : ∀ (m : Mem) o obj b y, FMap.get m.outs b = some y → ∃ z, FMap.get (given E m o obj).outs b = some z := by
    intro m o obj b y hb
    show ∃ z, FMap.get (FMap.insert m.outs _ _) b = some z
    rw [FMap.get_insert]
    split
    · exact ⟨_, rfl⟩
    · exact ⟨_, hb⟩
  obtain ⟨r1, e1, _⟩ := exec_makes (E := E) hm (.tokenNew o1 hi hn) hx1
  obtain ⟨y1, hy1, f1⟩ := exec_effect hm _ e1
  have hm1 := f1.memOk hm
  obtain ⟨z2, hz2⟩ := hv m o1 (.val (.token d x)) o2 x2 hx2
  obtain ⟨z3, hz3⟩ := hv m o1 (.val (.token d x)) o3 x3 hx3
  have ht := hg m o1 (.val (.token d x))
  obtain ⟨r2, e2, _⟩ := exec_makes (E := E) hm1 (.tokenGetId o2 ht.1) hz2
  obtain ⟨y2, hy2, f2⟩ := exec_effect hm1 _ e2
  have hm2 := f2.memOk hm1
  have ht2 := f2.frameVal ht.1 (fun h => h)
  obtain ⟨z3', hz3'⟩ := hv _ o2 (.val (.tokenId d)) o3 z3 hz3
  obtain ⟨r3, e3, _⟩ := exec_makes (E := E) hm2 (.tokenGetAmount o3 ht2) hz3'
  have hr1 : r1 = .unit := by
    have e := e1
    simp only [exec] at e
    rw [bind_apply] at e
    cases hq : (tokenNew E (some i) (some n) (some o1)).unwrap m with
    | panic => simp [hq] at e
    | ub => simp [hq] at e
    | done q m' =>
      cases q <;> simp [hq, pure_apply] at e
      exact e.1.symm
  exact ⟨_, _, hr1 ▸ e1, ht.2, _, r2, e2, ⟨_, (hg _ o2 _).2, (hg _ o2 _).1⟩, _, r3, e3, _, (hg _ o3 _).2, (hg _ o3 _).1⟩

example := C109_token_round_trip c109Env c109Mem c109Mem_ok 1 2 0 1 2 _ 5 rfl rfl ⟨0, none, rfl, rfl⟩ ⟨1, none, rfl, rfl⟩ ⟨2, none, rfl, rfl⟩

/-! ## Collections of strings -/

/-- A collection of one string. -/
def c109Strings : Mem :=
  { heap := [(1, .strColl 2 1), (2, .strVec [3]), (3, .cstr ['a'])], outs := [], bufs := [] }

/-- `delete_c_string_collection` frees the strings and the vector, but not the collection it was given (it stays allocated, and its pointer
dangles), and panics for null. -/
theorem C109_strings_violates (m : Mem) :
    deleteCStrings none m = .panic ∧
    ∃ m', deleteCStrings (some 1) c109Strings = .done (.ok ()) m' ∧ FMap.get m'.heap 1 = some (.strColl 2 1) ∧ ¬ Live m' 2 ∧ ¬ Live m' 3 ∧
      deleteCStrings (some 1) m' = .ub :=
  ⟨rfl, _, rfl, rfl, fun h => h rfl, fun h => h rfl, rfl⟩

end Verif
