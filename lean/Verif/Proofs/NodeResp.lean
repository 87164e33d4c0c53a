import Verif.Spec.NodeResp
import Verif.Proofs.DerivationPath
import Verif.Proofs.Json

set_option linter.unusedSimpArgs false
set_option linter.unusedVariables false

/-! # Lemmas on versions and reported addresses -/

namespace Verif
open Spec Json

/-! ## Versions -/

theorem textLt_cons (a b : Char) (s t : Text) :
    textLt (a :: s) (b :: t) = if a.toNat < b.toNat then true else if b.toNat < a.toNat then false else textLt s t := rfl

theorem textLt_nil (s : Text) : textLt s [] = false := by cases s <;> rfl

theorem foldl_digits_ge (ds : List Char) (a : Nat) (h : 1 ≤ a) : 10 ^ ds.length ≤ ds.foldl (fun a c => 10 * a + (c.toNat - 48)) a := by
  induction ds generalizing a with
  | nil => simpa using h
  | cons c ds ih =>
    rw [List.foldl_cons, List.length_cons]
    have key : ∀ (l : List Char) (x k : Nat), k * 10 ^ l.length ≤ l.foldl (fun a c => 10 * a + (c.toNat - 48)) (k + x) := by
      intro l
      induction l with
      | nil => intro x k; simp
      | cons c l ih =>
        intro x k
        rw [List.foldl_cons, List.length_cons]
        have := ih (10 * x + (c.toNat - 48)) (10 * k)
        rw [show 10 * (k + x) + (c.toNat - 48) = 10 * k + (10 * x + (c.toNat - 48)) by omega]
        calc k * 10 ^ (l.length + 1) = 10 * k * 10 ^ l.length := by rw [pow_succ]; ring
          _ ≤ _ := this
    have := key ds (10 * (a - 1) + (c.toNat - 48)) 10
    rw [show 10 + (10 * (a - 1) + (c.toNat - 48)) = 10 * a + (c.toNat - 48) by omega] at this
    rw [pow_succ]; omega

theorem decimal_one {c : Char} {n : Nat} (h : Decimal [c] n) : n = c.toNat - 48 := by
  have := h.2.2.1
  simpa [digitsValue] using this.symm

theorem decimal_long {c d : Char} {s : Text} {n : Nat} (h : Decimal (c :: d :: s) n) : 49 ≤ c.toNat ∧ 10 ≤ n := by
  obtain ⟨_, h2, h3, h4⟩ := h
  have hc : 49 ≤ c.toNat := by
    have := h2 c (by simp)
    rcases Nat.lt_or_ge 48 c.toNat with h | h
    · exact h
    · have : c = '0' := by
        apply Char.ext; apply UInt32.ext
        show c.toNat = 48
        omega
      exact absurd (h4 (by rw [this]; rfl)) (by simp)
  refine ⟨hc, ?_⟩
  rw [← h3, digitsValue, List.foldl_cons]
  have := foldl_digits_ge (d :: s) (10 * 0 + (c.toNat - 48)) (by omega)
  rw [List.length_cons, pow_succ] at this
  have h1 : 1 ≤ 10 ^ s.length := Nat.one_le_pow _ _ (by omega)
  omega

theorem digitsValue_two (c d : Char) : digitsValue [c, d] = 10 * (c.toNat - 48) + (d.toNat - 48) := by
  simp [digitsValue]

theorem decimal_longer {c d e : Char} {s : Text} {n : Nat} (h : Decimal (c :: d :: e :: s) n) : 100 ≤ n := by
  have hc := (decimal_long h).1
  obtain ⟨_, h2, h3, h4⟩ := h
  rw [← h3, digitsValue, List.foldl_cons]
  have := foldl_digits_ge (d :: e :: s) (10 * 0 + (c.toNat - 48)) (by omega)
  rw [List.length_cons, List.length_cons, pow_succ, pow_succ] at this
  have h1 : 1 ≤ 10 ^ s.length := Nat.one_le_pow _ _ (by omega)
  omega

theorem char_of_toNat {c d : Char} (h : c.toNat = d.toNat) : c = d := by
  apply Char.ext; apply UInt32.ext; exact h

/-- Where a version stands against `4.0.100` in the order of texts. -/
theorem version_lt {sa sb sc tail : Text} {a b c : Nat} {t : Text} (h : VersionText sa sb sc tail a b c t) (x : Char) (hx : sa.head? = some x) :
    textLt t eip37Version = true ↔ x.toNat < 52 ∨ a = 4 ∧ b = 0 ∧ (c = 0 ∨ c = 1 ∨ c = 10) := by
  obtain ⟨ha, hb, hc, ht, rfl⟩ := h
  have n4 : ('4' : Char).toNat = 52 := rfl
  have n0 : ('0' : Char).toNat = 48 := rfl
  have n1 : ('1' : Char).toNat = 49 := rfl
  have nd : ('.' : Char).toNat = 46 := rfl
  have nm : ('-' : Char).toNat = 45 := rfl
  cases sa with
  | nil => exact absurd rfl ha.1
  | cons x' sa =>
    simp only [List.head?_cons, Option.some.injEq] at hx
    subst hx
    have hxd := ha.2.1 x' (by simp)
    rw [eip37Version, show x' :: sa ++ '.' :: sb ++ '.' :: sc ++ tail = x' :: (sa ++ '.' :: (sb ++ '.' :: (sc ++ tail))) by simp, textLt_cons, n4]
    by_cases h1 : x'.toNat < 52
    · rw [if_pos h1]; simp [h1]
    · rw [if_neg h1]
      by_cases h2 : 52 < x'.toNat
      · rw [if_pos h2]
        have : a ≠ 4 := by
          cases sa with
          | nil => have := decimal_one ha; omega
          | cons y s => have := (decimal_long ha).2; omega
        simp [h1, this]
      · rw [if_neg h2]
        cases sa with
        | cons y s =>
          have hy := ha.2.1 y (by simp)
          have := (decimal_long ha).2
          rw [List.cons_append, textLt_cons, nd, if_neg (by omega), if_pos (by omega)]
          simp [h1]; omega
        | nil =>
          have ha4 : a = 4 := by have := decimal_one ha; omega
          rw [List.nil_append, textLt_cons, if_neg (lt_irrefl _), if_neg (lt_irrefl _)]
          simp only [h1, ha4, true_and, false_or]
          cases sb with
          | nil => exact absurd rfl hb.1
          | cons y sb =>
            have hyd := hb.2.1 y (by simp)
            rw [List.cons_append, textLt_cons, n0, if_neg (by omega)]
            by_cases h3 : 48 < y.toNat
            · rw [if_pos h3]
              have : b ≠ 0 := by
                cases sb with
                | nil => have := decimal_one hb; omega
                | cons y s => have := (decimal_long hb).2; omega
              simp [this]
            · rw [if_neg h3]
              have hy0 : y = '0' := char_of_toNat (by rw [n0]; omega)
              have hsb : sb = [] := by
                have := hb.2.2.2 (by rw [hy0]; rfl)
                exact (List.cons.inj this).2
              subst hsb
              have hb0 : b = 0 := by have := decimal_one hb; omega
              rw [List.nil_append, textLt_cons, if_neg (lt_irrefl _), if_neg (lt_irrefl _)]
              simp only [hb0, true_and]
              have htail : ∀ r : Text, textLt tail ('0' :: r) = true := by
                intro r
                cases tail with
                | nil => rfl
                | cons m tl =>
                  rcases ht with h | h
                  · cases h
                  · simp only [List.head?_cons, Option.some.injEq] at h
                    rw [h, textLt_cons, nm, n0, if_pos (by omega)]
              cases sc with
              | nil => exact absurd rfl hc.1
              | cons z sc =>
                have hzd := hc.2.1 z (by simp)
                rw [List.cons_append, textLt_cons, n1]
                by_cases h4 : z.toNat < 49
                · rw [if_pos h4]
                  have : c = 0 := by
                    cases sc with
                    | nil => have := decimal_one hc; omega
                    | cons y s => have := (decimal_long hc).1; omega
                  simp [this]
                · rw [if_neg h4]
                  cases sc with
                  | nil =>
                    have hcz := decimal_one hc
                    by_cases h5 : 49 < z.toNat
                    · rw [if_pos h5]; simp; omega
                    · rw [if_neg h5, List.nil_append, htail]; simp; omega
                  | cons w sc =>
                    have hwd := hc.2.1 w (by simp)
                    have hge := (decimal_long hc).2
                    by_cases h5 : 49 < z.toNat
                    · rw [if_pos h5]
                      have : c ≠ 10 := by
                        cases sc with
                        | nil => have := hc.2.2.1; rw [digitsValue_two] at this; omega
                        | cons _ _ => have := decimal_longer hc; omega
                      simp [this]; omega
                    · rw [if_neg h5, List.cons_append, textLt_cons, n0, if_neg (by omega)]
                      by_cases h6 : 48 < w.toNat
                      · rw [if_pos h6]
                        have : c ≠ 10 := by
                          cases sc with
                          | nil => have := hc.2.2.1; rw [digitsValue_two] at this; omega
                          | cons _ _ => have := decimal_longer hc; omega
                        simp [this]; omega
                      · rw [if_neg h6]
                        cases sc with
                        | nil =>
                          have := hc.2.2.1
                          rw [digitsValue_two] at this
                          rw [List.nil_append, htail]; simp; omega
                        | cons v sc =>
                          have hvd := hc.2.1 v (by simp)
                          have := decimal_longer hc
                          rw [List.cons_append, textLt_cons, n0, if_neg (by omega), textLt_nil]
                          simp; omega

/-- The size of a number from its leading digit. -/
theorem decimal_head {s : Text} {n : Nat} (h : Decimal s n) (x : Char) (hx : s.head? = some x) : s = [x] ∧ n = x.toNat - 48 ∨ 2 ≤ s.length ∧ 10 ≤ n := by
  cases s with
  | nil => cases hx
  | cons y s =>
    simp only [List.head?_cons, Option.some.injEq] at hx
    subst hx
    cases s with
    | nil => exact .inl ⟨rfl, decimal_one h⟩
    | cons z s => exact .inr ⟨by simp, (decimal_long h).2⟩

/-! ## Addresses -/

theorem splitColon_ne_nil (s : Text) : splitColon s ≠ [] := by
  cases s with
  | nil => simp [splitColon]
  | cons c cs =>
    rw [splitColon]
    cases splitColon cs with
    | nil => simp
    | cons p ps => by_cases hc : c = ':' <;> simp [hc]

theorem joinColon_cons (p : Text) {l : List Text} (h : l ≠ []) : joinColon (p :: l) = p ++ ':' :: joinColon l := by
  cases l with
  | nil => exact absurd rfl h
  | cons q ps => rfl

theorem joinColon_split : ∀ s : Text, joinColon (splitColon s) = s
  | [] => rfl
  | c :: cs => by
    have ih := joinColon_split cs
    rw [splitColon]
    cases hs : splitColon cs with
    | nil => exact absurd hs (splitColon_ne_nil cs)
    | cons p ps =>
      rw [hs] at ih
      by_cases hc : c = ':'
      · simp only [hc, if_true]
        rw [joinColon_cons [] (by simp), ih]; rfl
      · simp only [hc, if_false]
        cases ps with
        | nil => simp only [joinColon] at ih ⊢; rw [ih]
        | cons q ps => rw [joinColon_cons _ (by simp)] at ih ⊢; rw [List.cons_append, ih]

theorem splitColon_mem : ∀ (s p : Text), p ∈ splitColon s → ':' ∉ p
  | [], p, h => by
    rw [splitColon, List.mem_singleton] at h; subst h; simp
  | c :: cs, p, h => by
    rw [splitColon] at h
    cases hs : splitColon cs with
    | nil => exact absurd hs (splitColon_ne_nil cs)
    | cons q ps =>
      rw [hs] at h
      have ih := splitColon_mem cs
      rw [hs] at ih
      by_cases hc : c = ':'
      · simp only [hc, if_true, List.mem_cons] at h
        rcases h with rfl | h | h
        · simp
        · exact ih p (by simp [h])
        · exact ih p (by simp [h])
      · simp only [hc, if_false, List.mem_cons] at h
        rcases h with rfl | h
        · intro hm
          rcases List.mem_cons.1 hm with h | h
          · exact hc h.symm
          · exact ih q (by simp) h
        · exact ih p (by simp [h])

theorem splitColon_single (p : Text) (h : ':' ∉ p) : splitColon p = [p] := by
  induction p with
  | nil => rfl
  | cons c p ih =>
    rw [splitColon, ih (fun hm => h (List.mem_cons_of_mem _ hm))]
    have : c ≠ ':' := fun hc => h (by rw [hc]; exact List.mem_cons_self ..)
    simp [this]

theorem splitColon_last : ∀ (host port : Text), ':' ∉ port → splitColon (host ++ ':' :: port) = splitColon host ++ [port]
  | [], port, h => by
    rw [List.nil_append]
    show (match splitColon port with | [] => _ | p :: ps => _) = _
    rw [splitColon_single port h]; rfl
  | c :: cs, port, h => by
    rw [List.cons_append, splitColon, splitColon_last cs port h, splitColon]
    cases hs : splitColon cs with
    | nil => exact absurd hs (splitColon_ne_nil cs)
    | cons p ps => by_cases hc : c = ':' <;> simp [hc]

theorem splitColon_length (s : Text) : 2 ≤ (splitColon s).length ↔ ':' ∈ s := by
  induction s with
  | nil => simp [splitColon]
  | cons c cs ih =>
    rw [splitColon]
    cases hs : splitColon cs with
    | nil => exact absurd hs (splitColon_ne_nil cs)
    | cons p ps =>
      rw [hs] at ih
      by_cases hc : c = ':'
      · simp [hc]
      · simp only [hc, if_false, List.mem_cons, Ne.symm hc, false_or, List.length_cons] at ih ⊢; exact ih

/-- The bracketed text of something with a colon in the host. -/
theorem bracketed_split (host port : Text) (h : ':' ∉ port) :
    bracketed (splitColon (host ++ ':' :: port)).reverse = .ok ('[' :: host ++ ']' :: ':' :: port) := by
  rw [splitColon_last host port h, List.reverse_append, List.reverse_singleton, List.singleton_append, bracketed, List.reverse_reverse,
    joinColon_split]

/-- Every text with a colon has a last one. -/
theorem last_colon (s : Text) (h : ':' ∈ s) : ∃ host port, s = host ++ ':' :: port ∧ ':' ∉ port := by
  induction s with
  | nil => cases h
  | cons c cs ih =>
    by_cases hm : ':' ∈ cs
    · obtain ⟨host, port, h1, h2⟩ := ih hm
      exact ⟨c :: host, port, by rw [h1]; rfl, h2⟩
    · rcases List.mem_cons.1 h with h | h
      · exact ⟨[], cs, by rw [← h]; rfl, hm⟩
      · exact absurd h hm

/-- What is read behind the slash. -/
def Stripped (s t : Text) : Prop := s = '/' :: t ∨ s = t ∧ t.head? ≠ some '/'

theorem strip_exists (s : Text) : ∃ t, Stripped s t := by
  by_cases h : s.head? = some '/'
  · cases s with
    | nil => cases h
    | cons c cs =>
      simp only [List.head?_cons, Option.some.injEq] at h
      exact ⟨cs, .inl (by rw [h])⟩
  · exact ⟨s, .inr ⟨rfl, h⟩⟩

theorem strip_unique {s t t' : Text} (h : Stripped s t) (h' : Stripped s t') : t = t' := by
  rcases h with rfl | ⟨rfl, h⟩ <;> rcases h' with h' | ⟨h', h2⟩
  · injection h' with _ h; 
  · subst h'; exact absurd rfl h2
  · subst h'; exact absurd rfl h
  · exact h'

/-- `parseReported` on the text behind the slash. -/
def parseBare {U : Type} (A : AddrText U) (s : Text) : Outcome PeerAddr :=
  match A.read s with
  | some a => .ok a
  | none =>
    let parts := (splitColon s).reverse
    if parts.length = 2 then .err
    else do
      let t ← bracketed parts
      ofOpt (A.read t)

theorem parseReported_strip {U : Type} (A : AddrText U) {s t : Text} (h : Stripped s t) : parseReported A s = parseBare A t := by
  rcases h with rfl | ⟨rfl, h⟩
  · rfl
  · cases s with
    | nil => rfl
    | cons c cs =>
      have hc : c ≠ '/' := fun hc => h (by rw [hc]; rfl)
      unfold parseReported parseBare
      split
      · rename_i t heq
        injection heq with h1 _
        exact absurd h1 hc
      · rfl

theorem bracketed_np (s : Text) : ∃ t, bracketed (splitColon s).reverse = .ok t := by
  cases h : (splitColon s).reverse with
  | nil => exact absurd (List.reverse_eq_nil_iff.1 h) (splitColon_ne_nil s)
  | cons p r => exact ⟨_, rfl⟩

theorem parseBare_iff {U : Type} (A : AddrText U) (hA : ∀ t, A.read ('[' :: ']' :: ':' :: t) = none) (t : Text) (a : PeerAddr) :
    parseBare A t = .ok a ↔ A.read t = some a ∨
      A.read t = none ∧ ∃ host port, t = host ++ ':' :: port ∧ ':' ∈ host ∧ ':' ∉ port ∧ A.read ('[' :: host ++ ']' :: ':' :: port) = some a := by
  unfold parseBare
  cases hr : A.read t with
  | some b => simp
  | none =>
    simp only [reduceCtorEq, false_or, true_and, List.length_reverse]
    by_cases hcol : ':' ∈ t
    · obtain ⟨host, port, rfl, hp⟩ := last_colon t hcol
      have huniq : ∀ host' port' : Text, host ++ ':' :: port = host' ++ ':' :: port' → ':' ∉ port' → host' = host ∧ port' = port := by
        intro host' port' h h'
        have h1 := splitColon_last host port hp
        have h2 := splitColon_last host' port' h'
        rw [h, h2] at h1
        have h3 := List.append_inj' h1 rfl
        have h4 : host' = host := by
          rw [← joinColon_split host', ← joinColon_split host, h3.1]
        exact ⟨h4, by simpa using h3.2⟩
      rw [bracketed_split host port hp, splitColon_last host port hp, List.length_append, List.length_singleton]
      by_cases hh : ':' ∈ host
      · have := (splitColon_length host).2 hh
        rw [if_neg (by omega), Outcome.bind_ok]
        constructor
        · intro h
          refine ⟨host, port, rfl, hh, hp, ?_⟩
          cases hx : A.read ('[' :: host ++ ']' :: ':' :: port) with
          | none => rw [hx] at h; cases h
          | some b => rw [hx] at h; injection h with h; rw [h]
        · rintro ⟨host', port', h1, _, h3, h4⟩
          obtain ⟨rfl, rfl⟩ := huniq _ _ h1 h3
          rw [h4]; rfl
      · rw [splitColon_single host hh, List.length_singleton, if_pos rfl]
        simp only [reduceCtorEq, false_iff]
        rintro ⟨host', port', h1, h2, h3, _⟩
        obtain ⟨rfl, rfl⟩ := huniq _ _ h1 h3
        exact hh h2
    · rw [splitColon_single t hcol]
      simp only [List.length_singleton, List.reverse_singleton]
      rw [if_neg (by decide), bracketed]
      simp only [List.reverse_nil, joinColon, Outcome.bind_ok]
      have := hA t
      rw [show ('[' :: [] ++ ']' :: ':' :: t : Text) = '[' :: ']' :: ':' :: t from rfl, this]
      simp only [ofOpt, reduceCtorEq, false_iff]
      rintro ⟨host, port, rfl, _⟩
      exact hcol (by simp)

theorem parseReported_np {U : Type} (A : AddrText U) (s : Text) : parseReported A s ≠ .panic := by
  obtain ⟨t, ht⟩ := strip_exists s
  rw [parseReported_strip A ht, parseBare]
  cases A.read t with
  | some b => simp
  | none =>
    simp only []
    split
    · simp
    · obtain ⟨u, hu⟩ := bracketed_np t
      rw [hu, Outcome.bind_ok]
      cases A.read u <;> simp [ofOpt]

end Verif
