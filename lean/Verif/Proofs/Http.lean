import Verif.Spec.Http
import Verif.Proofs.Json

set_option linter.unusedSimpArgs false
set_option linter.unusedVariables false

/-!
# Lemmas on header maps and request builders
-/

namespace Verif.Http
open Spec

theorem ofMap_nil (n : Text) : ofMap [] n = [] := rfl

theorem ofMap_cons (k : Text) (vs : List Text) (h : HeaderMap) (n : Text) :
    ofMap ((k, vs) :: h) n = if k = n then vs else ofMap h n := by
  unfold ofMap
  by_cases e : k = n <;> simp [List.find?_cons, e]

theorem ofMap_insert (h : HeaderMap) (k v n : Text) : ofMap (h.insert k v) n = if n = k then [v] else ofMap h n := by
  induction h with
  | nil => simp only [HeaderMap.insert, ofMap_cons, ofMap_nil, eq_comm]
  | cons p h ih =>
    obtain ⟨a, vs⟩ := p
    unfold HeaderMap.insert
    by_cases e : a = k
    · rw [if_pos e, ofMap_cons, ofMap_cons]
      subst e
      by_cases e2 : a = n
      · simp [e2]
      · simp [e2, Ne.symm e2]
    · rw [if_neg e, ofMap_cons, ofMap_cons, ih]
      by_cases e2 : a = n
      · subst e2; simp [e]
      · simp [e2]

theorem ofMap_append (h : HeaderMap) (k v n : Text) :
    ofMap (h.append k v) n = if n = k then ofMap h n ++ [v] else ofMap h n := by
  induction h with
  | nil => 
    simp only [HeaderMap.append, ofMap_cons, ofMap_nil, eq_comm]
    rfl
  | cons p h ih =>
    obtain ⟨a, vs⟩ := p
    unfold HeaderMap.append
    by_cases e : a = k
    · rw [if_pos e, ofMap_cons, ofMap_cons]
      subst e
      by_cases e2 : a = n
      · simp [e2]
      · simp [e2, Ne.symm e2]
    · rw [if_neg e, ofMap_cons, ofMap_cons, ih]
      by_cases e2 : a = n
      · subst e2; simp [e]
      · simp [e2]

theorem names_insert (h : HeaderMap) (k v : Text) :
    (h.insert k v).map Prod.fst = if k ∈ h.map Prod.fst then h.map Prod.fst else h.map Prod.fst ++ [k] := by
  induction h with
  | nil => simp [HeaderMap.insert]
  | cons p h ih =>
    obtain ⟨a, vs⟩ := p
    unfold HeaderMap.insert
    by_cases e : a = k
    · simp [e]
    · rw [if_neg e, List.map_cons, ih]
      by_cases m : k ∈ h.map Prod.fst
      · rw [if_pos m, if_pos (by simp only [List.map_cons, List.mem_cons]; exact Or.inr m)]; rfl
      · rw [if_neg m, if_neg (by
          simp only [List.map_cons, List.mem_cons, not_or]; exact ⟨Ne.symm e, m⟩)]; rfl

theorem names_append (h : HeaderMap) (k v : Text) :
    (h.append k v).map Prod.fst = if k ∈ h.map Prod.fst then h.map Prod.fst else h.map Prod.fst ++ [k] := by
  induction h with
  | nil => simp [HeaderMap.append]
  | cons p h ih =>
    obtain ⟨a, vs⟩ := p
    unfold HeaderMap.append
    by_cases e : a = k
    · simp [e]
    · rw [if_neg e, List.map_cons, ih]
      by_cases m : k ∈ h.map Prod.fst
      · rw [if_pos m, if_pos (by simp only [List.map_cons, List.mem_cons]; exact Or.inr m)]; rfl
      · rw [if_neg m, if_neg (by
          simp only [List.map_cons, List.mem_cons, not_or]; exact ⟨Ne.symm e, m⟩)]; rfl

theorem nodup_add {l : List Text} (h : l.Nodup) (k : Text) : (if k ∈ l then l else l ++ [k]).Nodup := by
  by_cases m : k ∈ l
  · rw [if_pos m]; exact h
  · rw [if_neg m, List.nodup_append]
    refine ⟨h, by simp, ?_⟩
    intro a ha b hb e
    rw [List.mem_singleton] at hb
    subst e hb; exact m ha

theorem insert_nonempty (h : HeaderMap) (k v : Text) (H : ∀ p ∈ h, p.2 ≠ []) : ∀ p ∈ h.insert k v, p.2 ≠ [] := by
  induction h with
  | nil => intro p hp; simp [HeaderMap.insert] at hp; simp [hp]
  | cons q h ih =>
    obtain ⟨a, vs⟩ := q
    unfold HeaderMap.insert
    have ih := ih fun p hp => H p (List.mem_cons_of_mem _ hp)
    have h0 := H _ List.mem_cons_self
    intro p hp
    by_cases e : a = k
    · rw [if_pos e] at hp
      rcases List.mem_cons.1 hp with rfl | hp
      · simp
      · exact H p (List.mem_cons_of_mem _ hp)
    · rw [if_neg e] at hp
      rcases List.mem_cons.1 hp with rfl | hp
      · exact h0
      · exact ih p hp

theorem append_nonempty (h : HeaderMap) (k v : Text) (H : ∀ p ∈ h, p.2 ≠ []) : ∀ p ∈ h.append k v, p.2 ≠ [] := by
  induction h with
  | nil => intro p hp; simp [HeaderMap.append] at hp; simp [hp]
  | cons q h ih =>
    obtain ⟨a, vs⟩ := q
    unfold HeaderMap.append
    have ih := ih fun p hp => H p (List.mem_cons_of_mem _ hp)
    have h0 := H _ List.mem_cons_self
    intro p hp
    by_cases e : a = k
    · rw [if_pos e] at hp
      rcases List.mem_cons.1 hp with rfl | hp
      · simp
      · exact H p (List.mem_cons_of_mem _ hp)
    · rw [if_neg e] at hp
      rcases List.mem_cons.1 hp with rfl | hp
      · exact h0
      · exact ih p hp

theorem mapOk_nil : MapOk [] := ⟨List.nodup_nil, by simp⟩

theorem mapOk_insert {h : HeaderMap} (H : MapOk h) (k v : Text) : MapOk (h.insert k v) :=
  ⟨by rw [names_insert]; exact nodup_add H.nodup k, insert_nonempty h k v H.nonempty⟩

theorem mapOk_append {h : HeaderMap} (H : MapOk h) (k v : Text) : MapOk (h.append k v) :=
  ⟨by rw [names_append]; exact nodup_add H.nodup k, append_nonempty h k v H.nonempty⟩

theorem mapOk_tail {p : Text × List Text} {h : HeaderMap} (H : MapOk (p :: h)) : MapOk h :=
  ⟨(List.nodup_cons.1 H.nodup).2, fun q hq => H.nonempty q (List.mem_cons_of_mem _ hq)⟩

/-- A map has no values for a name that is not in it. -/
theorem ofMap_absent {h : HeaderMap} {n : Text} (m : n ∉ h.map Prod.fst) : ofMap h n = [] := by
  induction h with
  | nil => rfl
  | cons p h ih =>
    obtain ⟨a, vs⟩ := p
    simp only [List.map_cons, List.mem_cons, not_or] at m
    rw [ofMap_cons, if_neg (Ne.symm m.1), ih m.2]

/-! ## Replacing headers -/

theorem replaceLoop_nones (vs : List Text) (rest : List (Option Text × Text)) (k : Text) (d : HeaderMap) :
    replaceLoop (vs.map (fun v => (none, v)) ++ rest) (some k) d =
      replaceLoop rest (some k) (vs.foldl (fun d v => d.append k v) d) := by
  induction vs generalizing d with
  | nil => rfl
  | cons v vs ih => simp only [List.map_cons, List.cons_append, replaceLoop, List.foldl_cons]; exact ih _

theorem ofMap_appends (vs : List Text) (k : Text) (d : HeaderMap) (n : Text) :
    ofMap (vs.foldl (fun d v => d.append k v) d) n = if n = k then ofMap d n ++ vs else ofMap d n := by
  induction vs generalizing d with
  | nil => simp
  | cons v vs ih =>
    rw [List.foldl_cons, ih, ofMap_append]
    by_cases e : n = k <;> simp [e]

theorem mapOk_appends (vs : List Text) (k : Text) {d : HeaderMap} (H : MapOk d) :
    MapOk (vs.foldl (fun d v => d.append k v) d) := by
  induction vs generalizing d with
  | nil => exact H
  | cons v vs ih => exact ih (mapOk_append H k v)

theorem replaceLoop_ok (s : HeaderMap) (d : HeaderMap) (prev : Option Text) :
    ∃ r, replaceLoop s.intoIter prev d = .ok r ∧ (MapOk d → MapOk r) ∧
      (MapOk s → ∀ n, ofMap r n = if ofMap s n ≠ [] then ofMap s n else ofMap d n) := by
  induction s generalizing d prev with
  | nil => exact ⟨d, rfl, id, fun _ n => by simp [ofMap_nil]⟩
  | cons p s ih =>
    obtain ⟨k, vs⟩ := p
    cases vs with
    | nil =>
      obtain ⟨r, h1, h2, _⟩ := ih d prev
      exact ⟨r, h1, h2, fun H => absurd rfl (H.nonempty _ List.mem_cons_self)⟩
    | cons v vs =>
      obtain ⟨r, h1, h2, h3⟩ := ih (vs.foldl (fun d v => d.append k v) (d.insert k v)) (some k)
      refine ⟨r, ?_, fun H => h2 (mapOk_appends vs k (mapOk_insert H k v)), fun H n => ?_⟩
      · rw [← h1, ← replaceLoop_nones]
        rfl
      · rw [h3 (mapOk_tail H), ofMap_cons, ofMap_appends, ofMap_insert]
        have hk : k ∉ s.map Prod.fst := (List.nodup_cons.1 H.nodup).1
        by_cases e : k = n
        · subst e
          simp [ofMap_absent hk]
        · simp [e, Ne.symm e]

theorem replaceHeaders_ok (d s : HeaderMap) :
    ∃ r, replaceHeaders d s = .ok r ∧ (MapOk d → MapOk r) ∧
      (MapOk s → ∀ n, ofMap r n = if ofMap s n ≠ [] then ofMap s n else ofMap d n) := replaceLoop_ok s d none

/-! ## Sent pairs -/

theorem ofPairs_append (a b : List (Text × Text)) (n : Text) : ofPairs (a ++ b) n = ofPairs a n ++ ofPairs b n := by
  simp [ofPairs]

theorem ofPairs_same (k : Text) (vs : List Text) (n : Text) :
    ofPairs (vs.map fun v => (k, v)) n = if k = n then vs else [] := by
  induction vs with
  | nil => simp [ofPairs]
  | cons v vs ih =>
    unfold ofPairs at ih ⊢
    by_cases e : k = n
    · simp [e] at ih ⊢
      exact ih
    · simp [e]

theorem ofPairs_iter {h : HeaderMap} (H : MapOk h) (n : Text) : ofPairs h.iter n = ofMap h n := by
  induction h with
  | nil => rfl
  | cons p h ih =>
    obtain ⟨k, vs⟩ := p
    show ofPairs ((vs.map fun v => (k, v)) ++ HeaderMap.iter h) n = _
    rw [ofPairs_append, ofPairs_same, ih (mapOk_tail H), ofMap_cons]
    by_cases e : k = n
    · subst e
      rw [if_pos rfl, if_pos rfl, ofMap_absent (List.nodup_cons.1 H.nodup).1, List.append_nil]
    · rw [if_neg e, if_neg e, List.nil_append]

theorem vacant_iff {h : HeaderMap} (H : MapOk h) (n : Text) : h.vacant n = true ↔ ofMap h n = [] := by
  induction h with
  | nil => simp [HeaderMap.vacant, ofMap_nil]
  | cons p h ih =>
    obtain ⟨k, vs⟩ := p
    have ih := ih (mapOk_tail H)
    have h0 := H.nonempty _ List.mem_cons_self
    rw [ofMap_cons]
    unfold HeaderMap.vacant at ih ⊢
    by_cases e : k = n
    · simp [e]; exact h0
    · simpa [e] using ih

theorem merge_ok (l : List (Text × Text)) {h : HeaderMap} (H : MapOk h) :
    MapOk (l.foldl (fun h p => if h.vacant p.1 then h.insert p.1 p.2 else h) h) ∧
    ∀ n, ofMap (l.foldl (fun h p => if h.vacant p.1 then h.insert p.1 p.2 else h) h) n =
      if ofMap h n ≠ [] then ofMap h n else (ofPairs l n).take 1 := by
  induction l generalizing h with
  | nil => exact ⟨H, fun n => by by_cases e : ofMap h n = [] <;> simp [e, ofPairs]⟩
  | cons p l ih =>
    obtain ⟨k, v⟩ := p
    rw [List.foldl_cons]
    by_cases hv : h.vacant k = true
    · simp only [hv, if_true]
      have h1 := ih (mapOk_insert H k v)
      refine ⟨h1.1, fun n => ?_⟩
      rw [h1.2, ofMap_insert]
      rw [vacant_iff H] at hv
      by_cases e : n = k
      · subst e
        simp [hv, ofPairs]
      · simp [e, ofPairs, Ne.symm e]
    · simp only [hv]
      have h1 := ih H
      refine ⟨h1.1, fun n => ?_⟩
      rw [if_neg (by decide), h1.2]
      rw [vacant_iff H] at hv
      by_cases e : n = k
      · subst e
        simp [hv]
      · simp [ofPairs, Ne.symm e]

theorem mergeHeaders_ok {d h : HeaderMap} (D : MapOk d) (H : MapOk h) :
    MapOk (mergeHeaders d h) ∧
    ∀ n, ofMap (mergeHeaders d h) n = if ofMap h n ≠ [] then ofMap h n else (ofMap d n).take 1 := by
  have := merge_ok d.iter H
  exact ⟨this.1, fun n => by rw [← ofPairs_iter D]; exact this.2 n⟩

theorem inserts_ok (l : List (Text × Text)) {h : HeaderMap} (H : MapOk h) :
    MapOk (l.foldl (fun c p => HeaderMap.insert c p.1 p.2) h) ∧
    ∀ n, ofMap (l.foldl (fun c p => HeaderMap.insert c p.1 p.2) h) n =
      match (ofPairs l n).getLast? with
      | some v => [v]
      | none => ofMap h n := by
  induction l generalizing h with
  | nil => exact ⟨H, fun n => by simp [ofPairs]⟩
  | cons p l ih =>
    obtain ⟨k, v⟩ := p
    have h1 := ih (mapOk_insert H k v)
    refine ⟨h1.1, fun n => ?_⟩
    rw [List.foldl_cons, h1.2, ofMap_insert]
    by_cases e : n = k
    · subst e
      have e1 : ofPairs ((n, v) :: l) n = v :: ofPairs l n := by simp [ofPairs]
      rw [e1, List.getLast?_cons]
      cases (ofPairs l n).getLast? <;> simp
    · have e1 : ofPairs ((k, v) :: l) n = ofPairs l n := by simp [ofPairs, Ne.symm e]
      rw [e1]; simp [e]

/-! ## Names and values -/

theorem nameChar_iff (c : Char) : nameChar c = true ↔ 33 ≤ c.toNat ∧ c.toNat ≤ 126 ∧
    c ∉ ['"', '(', ')', ',', '/', ':', ';', '<', '=', '>', '?', '@', '[', '\\', ']', '{', '}'] := by
  have all : ∀ i : Fin 127, nameChar (Char.ofNat i) = true ↔ 33 ≤ (Char.ofNat i).toNat ∧ (Char.ofNat i).toNat ≤ 126 ∧
      (Char.ofNat i) ∉ ['"', '(', ')', ',', '/', ':', ';', '<', '=', '>', '?', '@', '[', '\\', ']', '{', '}'] := by decide +kernel
  by_cases h : c.toNat < 127
  · have := all ⟨c.toNat, h⟩
    simpa only [Char.ofNat_toNat] using this
  · constructor
    · intro hc
      exfalso
      unfold nameChar at hc
      simp only [Bool.or_eq_true, Bool.and_eq_true, decide_eq_true_eq, List.contains_iff_mem, Char.le_def] at hc
      have hb : ∀ d : Char, c ≤ d → d.toNat < 127 → False := fun d hd hd2 => by
        have : c.toNat ≤ d.toNat := hd
        omega
      rcases hc with ((⟨_, hc⟩ | ⟨_, hc⟩) | ⟨_, hc⟩) | hc
      · exact hb 'z' hc (by decide)
      · exact hb 'Z' hc (by decide)
      · exact hb '9' hc (by decide)
      · have : ∀ d ∈ ['!', '#', '$', '%', '&', '\'', '*', '+', '-', '.', '^', '_', '`', '|', '~'], d.toNat < 127 := by decide
        exact h (this c hc)
    · intro hc; omega

theorem headerName_eq (s : Text) [Decidable (HeaderToken s)] :
    headerName s = if HeaderToken s then some (s.map Char.toLower) else none := by
  unfold headerName
  have : (s ≠ [] ∧ s.length ≤ 65535 ∧ s.all nameChar = true) ↔ HeaderToken s := by
    unfold HeaderToken
    simp only [List.all_eq_true, nameChar_iff]
  by_cases h : HeaderToken s
  · rw [if_pos (this.2 h), if_pos h]
  · rw [if_neg (fun x => h (this.1 x)), if_neg h]

theorem tab_iff (c : Char) : c = '\t' ↔ c.toNat = 9 := by
  constructor
  · rintro rfl; rfl
  · intro h; rw [← Char.ofNat_toNat c, h]

theorem visible_all (s : Text) : s.all visible = true ↔ Printable s := by
  unfold Printable visible
  simp only [List.all_eq_true, Bool.or_eq_true, Bool.and_eq_true, decide_eq_true_eq, tab_iff]
  constructor
  · intro h c hc; have := h c hc; omega
  · intro h c hc; have := h c hc; omega

theorem headerValueStr_eq (s : Text) [Decidable (Printable s)] : headerValueStr s = if Printable s then some s else none := by
  unfold headerValueStr
  by_cases h : Printable s
  · rw [if_pos ((visible_all s).2 h), if_pos h]
  · rw [if_neg (fun x => h ((visible_all s).1 x)), if_neg h]

theorem headerValueString_eq (s : Text) [Decidable (NoControls s)] :
    headerValueString s = if NoControls s then some s else none := by
  unfold headerValueString
  have : (s.all fun c => (32 ≤ c.toNat && c.toNat != 127) || c = '\t') = true ↔ NoControls s := by
    unfold NoControls
    simp only [List.all_eq_true, Bool.or_eq_true, Bool.and_eq_true, decide_eq_true_eq, tab_iff, bne_iff_ne]
    constructor
    · intro h c hc; have := h c hc; omega
    · intro h c hc; have := h c hc; omega
  by_cases h : NoControls s
  · rw [if_pos (this.2 h), if_pos h]
  · rw [if_neg (fun x => h (this.1 x)), if_neg h]

theorem noControls_bearer (t : Text) : NoControls (kBearer ++ t) ↔ NoControls t := by
  unfold NoControls
  constructor
  · intro h c hc; exact h c (List.mem_append_right _ hc)
  · intro h c hc
    rcases List.mem_append.1 hc with hc | hc
    · have : ∀ c ∈ kBearer, c.toNat = 9 ∨ 32 ≤ c.toNat ∧ c.toNat ≠ 127 := by decide
      exact this c hc
    · exact h c hc

/-! ## Calls -/

/-- What a request becomes by a call, in terms of the specification. -/
structure Stepped (r r' : Req) (c : Call) : Prop where
  method : r'.method = r.method
  url : r'.url = askedUrl r.url [c]
  maps : MapOk r.headers → MapOk r'.headers
  headers : MapsOk [c] → ofMap r'.headers = askHeaders (ofMap r.headers) c
  body : r'.body = (bodyOf c).or r.body
  cors : r'.cors = true ↔ r.cors = true ∧ c ≠ .noCors
  creds : r'.creds = (credsOf c).or r.creds
  timeout : r'.timeout = (limitOf c).or r.timeout

open Classical in
theorem on_some (r : Req) (c : Call) (h : CallOk c) : ∃ r', c.on r = some r' ∧ Stepped r r' c := by
  cases c with
  | query f =>
    cases f with
    | none => exact absurd rfl h
    | some f => exact ⟨_, rfl, by constructor <;> simp [askedUrl, askHeaders, bodyOf, credsOf, limitOf]⟩
  | form b =>
    cases b with
    | none => exact absurd rfl h
    | some b =>
      refine ⟨_, rfl, ?_⟩
      constructor <;> try simp [askedUrl, bodyOf, credsOf, limitOf]
      · exact fun H => mapOk_insert H _ _
      · intro _; funext n; rw [ofMap_insert]; rfl
  | json b =>
    cases b with
    | none => exact absurd rfl h
    | some b =>
      refine ⟨_, rfl, ?_⟩
      constructor <;> try simp [askedUrl, bodyOf, credsOf, limitOf]
      · exact fun H => mapOk_insert H _ _
      · intro _; funext n; rw [ofMap_insert]; rfl
  | bearer t =>
    have e : headerValueString (kBearer ++ t) = some (kBearer ++ t) := by
      rw [headerValueString_eq, if_pos ((noControls_bearer t).2 h)]
    refine ⟨_, by simp only [Call.on, e]; rfl, ?_⟩
    constructor <;> try simp [askedUrl, bodyOf, credsOf, limitOf]
    · exact fun H => mapOk_append H _ _
    · intro _; funext n; rw [ofMap_append]; rfl
  | timeout t => exact ⟨_, rfl, by constructor <;> simp [askedUrl, askHeaders, bodyOf, credsOf, limitOf]⟩
  | body b => exact ⟨_, rfl, by constructor <;> simp [askedUrl, askHeaders, bodyOf, credsOf, limitOf]⟩
  | header k v =>
    have e : headerName k = some (k.map Char.toLower) := by rw [headerName_eq, if_pos h.1]
    have e2 : headerValueStr v = some v := by rw [headerValueStr_eq, if_pos h.2]
    refine ⟨_, by simp only [Call.on, e, e2]; rfl, ?_⟩
    constructor <;> try simp [askedUrl, bodyOf, credsOf, limitOf]
    · exact fun H => mapOk_append H _ _
    · intro _; funext n; rw [ofMap_append]; rfl
  | headers m =>
    obtain ⟨d, h1, h2, h3⟩ := replaceHeaders_ok r.headers m
    refine ⟨_, by simp only [Call.on, h1]; rfl, ?_⟩
    constructor <;> try simp [askedUrl, bodyOf, credsOf, limitOf]
    · exact h2
    · intro H; funext n; rw [h3 (H m List.mem_cons_self)]; rfl
  | noCors => exact ⟨_, rfl, by constructor <;> simp [askedUrl, askHeaders, bodyOf, credsOf, limitOf]⟩
  | creds c => exact ⟨_, rfl, by constructor <;> simp [askedUrl, askHeaders, bodyOf, credsOf, limitOf]⟩

open Classical in
theorem on_none (r : Req) (c : Call) (h : ¬ CallOk c) : c.on r = none := by
  cases c with
  | query f => cases f with
    | none => rfl
    | some f => exact absurd (by simp [CallOk]) h
  | form f => cases f with
    | none => rfl
    | some f => exact absurd (by simp [CallOk]) h
  | json f => cases f with
    | none => rfl
    | some f => exact absurd (by simp [CallOk]) h
  | bearer t =>
    have e : headerValueString (kBearer ++ t) = none := by
      rw [headerValueString_eq, if_neg (fun x => h ((noControls_bearer t).1 x))]
    simp only [Call.on, e]
  | header k v =>
    by_cases hk : HeaderToken k
    · have e : headerName k = some (k.map Char.toLower) := by rw [headerName_eq, if_pos hk]
      have e2 : headerValueStr v = none := by rw [headerValueStr_eq, if_neg fun x => h ⟨hk, x⟩]
      simp only [Call.on, e, e2]
    · have e : headerName k = none := by rw [headerName_eq, if_neg hk]
      simp only [Call.on, e]
  | timeout t => exact absurd trivial h
  | body t => exact absurd trivial h
  | headers t => exact absurd trivial h
  | noCors => exact absurd trivial h
  | creds t => exact absurd trivial h

theorem steps_none (cs : List Call) : cs.foldl step none = none := by
  induction cs with
  | nil => rfl
  | cons c cs ih => exact ih

/-- What a request becomes by a sequence of calls. -/
structure Built (r r' : Req) (cs : List Call) : Prop where
  method : r'.method = r.method
  url : r'.url = askedUrl r.url cs
  maps : MapOk r.headers → MapOk r'.headers
  headers : MapsOk cs → ofMap r'.headers = cs.foldl askHeaders (ofMap r.headers)
  body : r'.body = (lastOf bodyOf cs).or r.body
  cors : r'.cors = true ↔ r.cors = true ∧ Call.noCors ∉ cs
  creds : r'.creds = (lastOf credsOf cs).or r.creds
  timeout : r'.timeout = (lastOf limitOf cs).or r.timeout

theorem lastOf_cons {α : Type} (f : Call → Option α) (c : Call) (cs : List Call) (x : Option α) :
    (lastOf f (c :: cs)).or x = (lastOf f cs).or ((f c).or x) := by
  unfold lastOf
  cases h : f c with
  | none => simp [List.filterMap_cons, h]
  | some a =>
    simp only [List.filterMap_cons, h, List.getLast?_cons]
    cases (List.filterMap f cs).getLast? <;> simp

theorem steps_some (cs : List Call) (r : Req) (h : ∀ c ∈ cs, CallOk c) : ∃ r', cs.foldl step (some r) = some r' ∧ Built r r' cs := by
  induction cs generalizing r with
  | nil => exact ⟨r, rfl, by constructor <;> simp [askedUrl, lastOf]⟩
  | cons c cs ih =>
    obtain ⟨r1, h1, s1⟩ := on_some r c (h c List.mem_cons_self)
    obtain ⟨r2, h2, s2⟩ := ih r1 fun c hc => h c (List.mem_cons_of_mem _ hc)
    refine ⟨r2, ?_, ?_⟩
    · rw [List.foldl_cons, show step (some r) c = some r1 from h1]; exact h2
    · constructor
      · rw [s2.method, s1.method]
      · rw [s2.url, s1.url]; rfl
      · exact fun H => s2.maps (s1.maps H)
      · intro H
        rw [s2.headers fun m hm => H m (List.mem_cons_of_mem _ hm), s1.headers fun m hm => H m (by
          rw [List.mem_singleton] at hm; rw [hm]; exact List.mem_cons_self)]; rfl
      · rw [s2.body, s1.body, lastOf_cons]
      · rw [s2.cors, s1.cors, List.mem_cons, not_or]
        constructor
        · rintro ⟨⟨a, b⟩, d⟩; exact ⟨a, Ne.symm b, d⟩
        · rintro ⟨a, b, d⟩; exact ⟨⟨a, Ne.symm b⟩, d⟩
      · rw [s2.creds, s1.creds, lastOf_cons]
      · rw [s2.timeout, s1.timeout, lastOf_cons]

theorem steps_fail (cs : List Call) (r : Option Req) (h : ∃ c ∈ cs, ¬ CallOk c) : cs.foldl step r = none := by
  induction cs generalizing r with
  | nil => obtain ⟨c, hc, _⟩ := h; cases hc
  | cons c cs ih =>
    rw [List.foldl_cons]
    by_cases hc : CallOk c
    · refine ih _ ?_
      obtain ⟨d, hd, hn⟩ := h
      rcases List.mem_cons.1 hd with rfl | hd
      · exact absurd hc hn
      · exact ⟨d, hd, hn⟩
    · have : step r c = none := by
        cases r with
        | none => rfl
        | some r => exact on_none r c hc
      rw [this, steps_none]

/-! ## Sending -/

theorem request_eq (c : Client) (hasHost : Text → Bool) (m u : Text) :
    c.request hasHost m u = if hasHost u then
      some { method := m, url := u, headers := [], body := none, cors := true, creds := none, timeout := c.timeout } else none := by
  unfold Client.request
  cases hasHost u <;> cases h : c.timeout <;> simp [h]

theorem ofMap_builder (ms : List HeaderMap) (H : ∀ m ∈ ms, MapOk m) {d : HeaderMap} (D : MapOk d) (f : Headers)
    (hf : ∀ n, ofMap d n = (f n).getLast?.toList) :
    MapOk (ms.foldl defaultHeaders d) ∧
    ∀ n, ofMap (ms.foldl defaultHeaders d) n =
      (ms.foldl (fun f m n => if ofMap m n ≠ [] then ofMap m n else f n) f n).getLast?.toList := by
  induction ms generalizing d f with
  | nil => exact ⟨D, hf⟩
  | cons m ms ih =>
    have h1 := inserts_ok m.iter D
    refine ih (fun m hm => H m (List.mem_cons_of_mem _ hm)) h1.1 _ fun n => ?_
    show ofMap (m.iter.foldl _ d) n = _
    rw [h1.2, ofPairs_iter (H m List.mem_cons_self)]
    by_cases e : ofMap m n = []
    · simp [e, hf]
    · simp only [ne_eq, e, not_false_eq_true, if_true]
      cases h : (ofMap m n).getLast? with
      | none => exact absurd (List.getLast?_eq_none_iff.1 h) e
      | some v => rfl

theorem take_last (l : List Text) : l.getLast?.toList.take 1 = l.getLast?.toList := by
  cases l.getLast? <;> rfl

theorem iter_all_printable {h : HeaderMap} (H : MapOk h) :
    (h.iter.all fun p => p.2.all visible) = true ↔ ∀ n, ∀ v ∈ ofMap h n, Printable v := by
  rw [List.all_eq_true]
  constructor
  · intro a n v hv
    rw [← ofPairs_iter H] at hv
    obtain ⟨p, hp, rfl⟩ := List.mem_map.1 hv
    exact (visible_all _).1 (a p (List.mem_filter.1 hp).1)
  · intro a p hp
    refine (visible_all _).2 (a p.1 p.2 ?_)
    rw [← ofPairs_iter H]
    exact List.mem_map.2 ⟨p, List.mem_filter.2 ⟨hp, by simp⟩, rfl⟩

/-- What is sent, in terms of the request built. -/
theorem send_some (c : Client) (r : Req) (C : MapOk c.headers) (R : MapOk r.headers)
    (P : ∀ n, ∀ v ∈ (if ofMap r.headers n ≠ [] then ofMap r.headers n else (ofMap c.headers n).take 1), Printable v) :
    send c (some r) = some {
      method := r.method
      url := r.url
      headers := (mergeHeaders c.headers r.headers).iter
      noCors := !r.cors
      creds := r.creds
      body := match r.body with
        | some b => if b.isEmpty then none else some b
        | none => none
      timer := r.timeout.map timerMillis } := by
  obtain ⟨m1, m2⟩ := mergeHeaders_ok C R
  have : ((mergeHeaders c.headers r.headers).iter.all fun p => p.2.all visible) = true := by
    rw [iter_all_printable m1]
    intro n v hv
    rw [m2] at hv
    exact P n v hv
  simp only [send, Option.bind_some, fetch]
  rw [if_pos this]
  cases r.body <;> rfl

theorem send_printable (c : Client) (r : Req) (C : MapOk c.headers) (R : MapOk r.headers) (h : (send c (some r)).isSome) :
    ∀ n, ∀ v ∈ (if ofMap r.headers n ≠ [] then ofMap r.headers n else (ofMap c.headers n).take 1), Printable v := by
  obtain ⟨m1, m2⟩ := mergeHeaders_ok C R
  simp only [send, Option.bind_some, fetch] at h
  by_cases a : ((mergeHeaders c.headers r.headers).iter.all fun p => p.2.all visible) = true
  · rw [iter_all_printable m1] at a
    intro n v hv
    rw [← m2] at hv
    exact a n v hv
  · rw [if_neg a] at h; cases h

theorem sent_all (ms : List HeaderMap) (t : Option Nat) (hasHost : Text → Bool) (m u : Text) (cs : List Call)
    (hm : ∀ h ∈ ms, MapOk h) (hc : MapsOk cs) :
    ((sentBy ms t hasHost m u cs).isSome ↔
      hasHost u = true ∧ (∀ c ∈ cs, CallOk c) ∧ ∀ n, ∀ v ∈ carried ms cs n, Printable v) ∧
    ∀ s, sentBy ms t hasHost m u cs = some s →
      s.method = m ∧ s.url = askedUrl u cs ∧ (∀ n, ofPairs s.headers n = carried ms cs n) ∧
      (s.noCors = true ↔ Call.noCors ∈ cs) ∧ s.creds = lastOf credsOf cs ∧
      s.body = (lastOf bodyOf cs).filter (fun b => b ≠ []) ∧
      s.timer = some (timerMillis ((lastOf limitOf cs).getD (t.getD 30000000000))) := by
  obtain ⟨C, hC⟩ : MapOk (clientOf ms t).headers ∧ _ := ofMap_builder ms hm mapOk_nil (fun _ => []) fun n => rfl
  unfold sentBy
  rw [request_eq]
  by_cases hh : hasHost u = true
  swap
  · rw [if_neg hh, steps_none]
    refine ⟨⟨fun h => by simp [send] at h, fun h => absurd h.1 hh⟩, fun s h => by simp [send] at h⟩
  rw [if_pos hh]
  by_cases ho : ∀ c ∈ cs, CallOk c
  swap
  · rw [steps_fail cs _ (by simpa using ho)]
    refine ⟨⟨fun h => by simp [send] at h, fun h => absurd h.2.1 ho⟩, fun s h => by simp [send] at h⟩
  obtain ⟨r, hr, B⟩ := steps_some cs
    { method := m, url := u, headers := [], body := none, cors := true, creds := none, timeout := (clientOf ms t).timeout } ho
  rw [hr]
  have R : MapOk r.headers := B.maps mapOk_nil
  have hR : ofMap r.headers = askedHeaders cs := B.headers hc
  have hcar : ∀ n, (if ofMap r.headers n ≠ [] then ofMap r.headers n else (ofMap (clientOf ms t).headers n).take 1) = carried ms cs n := by
    intro n
    show _ = if _ then _ else _
    rw [hR, show ofMap (clientOf ms t).headers n = _ from hC n, take_last]
    rfl
  by_cases P : ∀ n, ∀ v ∈ carried ms cs n, Printable v
  · have hs := send_some (clientOf ms t) r C R (by intro n v hv; rw [hcar] at hv; exact P n v hv)
    refine ⟨⟨fun _ => ⟨hh, ho, P⟩, fun _ => by rw [hs]; rfl⟩, ?_⟩
    intro s h
    rw [hs] at h
    obtain rfl := Option.some.inj h
    obtain ⟨m1, m2⟩ := mergeHeaders_ok C R
    refine ⟨B.method, B.url, fun n => ?_, ?_, ?_, ?_, ?_⟩
    · show ofPairs (HeaderMap.iter _) n = _
      rw [ofPairs_iter m1, m2, hcar]
    · have := B.cors
      simp only [true_and] at this
      show (!r.cors) = true ↔ _
      cases h : r.cors
      · rw [h] at this
        by_cases hn : Call.noCors ∈ cs
        · simp [hn]
        · exact absurd (this.2 hn) (by decide)
      · rw [h] at this
        simp [this.1 rfl]
    · have := B.creds
      simpa using this
    · have := B.body
      rw [Option.or_none] at this
      show (match r.body with | some b => if b.isEmpty then none else some b | none => none) = _
      rw [this]
      cases lastOf bodyOf cs with
      | none => rfl
      | some b => cases b <;> simp [Option.filter]
    · have := B.timeout
      show r.timeout.map timerMillis = _
      rw [this]
      cases lastOf limitOf cs <;> simp [clientOf]
  · refine ⟨⟨fun h => ?_, fun h => absurd h.2.2 P⟩, fun s h => ?_⟩
    · exact absurd (fun n v hv => send_printable (clientOf ms t) r C R h n v (by rw [hcar]; exact hv)) P
    · have h : (send (clientOf ms t) (some r)).isSome := by rw [h]; rfl
      exact absurd (fun n v hv => send_printable (clientOf ms t) r C R h n v (by rw [hcar]; exact hv)) P

end Verif.Http
