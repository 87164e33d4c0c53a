import Verif.Spec.Reader
import Verif.Proofs.ExprRead
import Verif.Proofs.Typing
import Mathlib.Tactic.Tauto
set_option linter.unusedSimpArgs false
set_option linter.unusedVariables false

/-!
# Lemmas on what a reader accepts
-/

namespace Verif
open Spec Expr
variable {G B T : Type}

theorem typeList_iff (l l' : List SType) : SType.beqList l l' = true ↔ l = l' :=
  SType.beqList_iff l (fun c _ b => SType.beq_iff c b) l'

theorem yields_iff (t u : SType) : Yields t u ↔ t.postEval = u := by
  constructor
  · rintro (⟨_, h⟩ | ⟨_, _, _⟩)
    · cases t <;> first | rfl | cases h
    · rfl
  · rintro rfl
    cases t <;> first | exact .value _ rfl | exact .result _ _ _

theorem evalsTo_iff (t u : SType) : SOp.evalsTo t u = true ↔ Yields t u := by
  rw [yields_iff, SOp.evalsTo, SType.beq_iff]

theorem isNumeric_iff (t : SType) : t.isNumeric = true ↔ ∃ n : NumTy, t = n.stype := by
  constructor
  · intro h
    cases t <;> first | cases h | skip
    · exact ⟨.byte, rfl⟩
    · exact ⟨.short, rfl⟩
    · exact ⟨.int, rfl⟩
    · exact ⟨.long, rfl⟩
    · exact ⟨.big, rfl⟩
  · rintro ⟨n, rfl⟩
    cases n <;> rfl

theorem optionTy_iff (t : SType) : (match t.postEval with | .option _ => true | _ => false) = true ↔ ∃ u, Yields t (.option u) := by
  simp only [yields_iff]
  cases t.postEval <;> simp

theorem collTy_iff (t : SType) : (match t.postEval with | .coll _ => true | _ => false) = true ↔ ∃ u, Yields t (.coll u) := by
  simp only [yields_iff]
  cases t.postEval <;> simp

theorem predicate_iff (a c : SType) : SOp.predicateOn a c = true ↔ ∃ u ps, Yields a (.coll u) ∧ c = .func [u] .bool ps := by
  simp only [yields_iff, SOp.predicateOn]
  cases a.postEval <;> cases c <;> simp [typeList_iff, SType.beq_iff]

theorem map_iff (a f : SType) : (match a.postEval, f with | .coll t, .func d _ _ => SType.beqList d [t] | _, _ => false) = true ↔
    ∃ u r ps, Yields a (.coll u) ∧ f = .func [u] r ps := by
  simp only [yields_iff]
  cases a.postEval <;> cases f <;> simp [typeList_iff]

theorem append_iff (a b : SType) : (match a.postEval, b.postEval with | .coll x, .coll y => SType.beq x y | _, _ => false) = true ↔
    ∃ u, Yields a (.coll u) ∧ Yields b (.coll u) := by
  simp only [yields_iff]
  cases a.postEval <;> cases b.postEval <;> simp [SType.beq_iff]
  exact eq_comm

theorem getOrElse_iff (a d : SType) : (match a.postEval with | .option t => SOp.evalsTo d t | _ => false) = true ↔
    ∃ u, Yields a (.option u) ∧ Yields d u := by
  simp only [yields_iff, evalsTo_iff]
  cases a.postEval <;> simp [evalsTo_iff, yields_iff]
  exact eq_comm

theorem length_zero {ts : List SType} (h : ts.length = 0) : ts = [] := List.eq_nil_of_length_eq_zero h
theorem length_one {ts : List SType} (h : ts.length = 1) : ∃ a, ts = [a] := List.length_eq_one_iff.1 h
theorem length_two {ts : List SType} (h : ts.length = 2) : ∃ a b, ts = [a, b] := List.length_eq_two.1 h
theorem length_three {ts : List SType} (h : ts.length = 3) : ∃ a b c, ts = [a, b, c] := List.length_eq_three.1 h

theorem unary_iff {o : SOp} {u t : SType} (h : (o, u) ∈ unaryOps) : OpRule o [t] ↔ Yields t u := by
  constructor
  · intro hr
    cases hr with
    | free _ _ hf => simp [unaryOps] at h; simp [freeOps] at hf; rcases h with h | h | h | h | h | h | h | h | h | h | h | h | h | h | h | h <;> simp [h.1] at hf
    | unary _ _ u' h' ht =>
      have : u = u' := by
        simp [unaryOps] at h h'
        rcases h with h | h | h | h | h | h | h | h | h | h | h | h | h | h | h | h <;> simp [h.1] at h' <;> rw [h.2, h']
      rw [this]; exact ht
    | number _ _ _ hn _ => simp [unaryOps] at h; simp at hn; rcases h with h | h | h | h | h | h | h | h | h | h | h | h | h | h | h | h <;> simp [h.1] at hn
    | option _ _ _ hn _ => simp [unaryOps] at h; simp at hn; rcases h with h | h | h | h | h | h | h | h | h | h | h | h | h | h | h | h <;> simp [h.1] at hn
    | sizeOf => simp [unaryOps] at h
  · exact fun hy => .unary _ _ _ h hy

theorem check_iff (o : SOp) (ts : List SType) (hl : ts.length = o.arity) : o.check ts = true ↔ OpRule o ts := by
  by_cases hf : o ∈ freeOps
  · refine iff_of_true ?_ (.free _ _ hf)
    simp only [freeOps, List.mem_cons, List.not_mem_nil, or_false] at hf
    rcases hf with rfl | rfl | rfl | rfl | rfl | rfl | rfl | rfl | rfl | rfl | rfl | rfl | rfl | rfl | rfl | rfl | rfl <;> rfl
  have hun : ∀ u, (o, u) ∈ unaryOps → (∀ t, ts = [t] → o.check ts = SOp.evalsTo t u) → o.arity = 1 → (o.check ts = true ↔ OpRule o ts) := by
    intro u hu hc ha
    obtain ⟨t, rfl⟩ := length_one (hl.trans ha)
    rw [hc t rfl, evalsTo_iff, unary_iff hu]
  cases o
  case height | inputs | outputs | selfBox | minerPubKey | groupGenerator | global | context | and | or | xorOf | fold | ifOp | treeLookup | createProveDhTuple | multiplyGroup | exponentiate => exact absurd (by simp [freeOps]) hf
  case logicalNot | boolToSigmaProp => exact hun .bool (by simp [unaryOps]) (fun t h => by rw [h]; rfl) rfl
  case extractAmount | extractBytes | extractBytesWithNoRef | extractScriptBytes | extractCreationInfo | extractId => exact hun .box (by simp [unaryOps]) (fun t h => by rw [h]; rfl) rfl
  case createProveDlog => exact hun .groupElement (by simp [unaryOps]) (fun t h => by rw [h]; rfl) rfl
  case sigmaPropBytes => exact hun .sigmaProp (by simp [unaryOps]) (fun t h => by rw [h]; rfl) rfl
  case decodePoint | calcBlake2b256 | calcSha256 | byteArrayToLong | byteArrayToBigInt => exact hun (.coll .byte) (by simp [unaryOps]) (fun t h => by rw [h]; rfl) rfl
  case longToByteArray => exact hun .long (by simp [unaryOps]) (fun t h => by rw [h]; rfl) rfl
  case negation =>
    obtain ⟨t, rfl⟩ := length_one hl
    show t.postEval.isNumeric = true ↔ _
    rw [isNumeric_iff]
    constructor
    · rintro ⟨n, hn⟩; exact .number _ _ n (by simp) ((yields_iff _ _).2 hn)
    · intro h
      cases h with
      | free _ _ h => exact absurd h hf
      | unary _ _ _ h => simp [unaryOps] at h
      | number _ _ n _ h => exact ⟨n, (yields_iff _ _).1 h⟩
      | option _ _ _ h => simp at h
  case bitInversion =>
    obtain ⟨t, rfl⟩ := length_one hl
    show t.postEval.isNumeric = true ↔ _
    rw [isNumeric_iff]
    constructor
    · rintro ⟨n, hn⟩; exact .number _ _ n (by simp) ((yields_iff _ _).2 hn)
    · intro h
      cases h with
      | free _ _ h => exact absurd h hf
      | unary _ _ _ h => simp [unaryOps] at h
      | number _ _ n _ h => exact ⟨n, (yields_iff _ _).1 h⟩
      | option _ _ _ h => simp at h
  case optionGet =>
    obtain ⟨t, rfl⟩ := length_one hl
    refine (optionTy_iff t).trans ⟨fun ⟨u, h⟩ => .option _ _ u (by simp) h, fun h => ?_⟩
    cases h with
    | free _ _ h => exact absurd h hf
    | unary _ _ _ h => simp [unaryOps] at h
    | number _ _ _ h => simp at h
    | option _ _ u _ h => exact ⟨u, h⟩
  case optionIsDefined =>
    obtain ⟨t, rfl⟩ := length_one hl
    refine (optionTy_iff t).trans ⟨fun ⟨u, h⟩ => .option _ _ u (by simp) h, fun h => ?_⟩
    cases h with
    | free _ _ h => exact absurd h hf
    | unary _ _ _ h => simp [unaryOps] at h
    | number _ _ _ h => simp at h
    | option _ _ u _ h => exact ⟨u, h⟩
  case sizeOf =>
    obtain ⟨t, rfl⟩ := length_one hl
    refine (collTy_iff t).trans ⟨fun ⟨u, h⟩ => .sizeOf _ u h, fun h => ?_⟩
    cases h with
    | free _ _ h => exact absurd h hf
    | unary _ _ _ h => simp [unaryOps] at h
    | number _ _ _ h => simp at h
    | option _ _ _ h => simp at h
    | sizeOf _ u h => exact ⟨u, h⟩
  case append =>
    obtain ⟨a, b, rfl⟩ := length_two hl
    refine (append_iff a b).trans ⟨fun ⟨u, h, h'⟩ => .append _ _ u h h', fun h => ?_⟩
    cases h with
    | free _ _ h => exact absurd h hf
    | predicate _ _ _ _ h => simp at h
    | append _ _ u h h' => exact ⟨u, h, h'⟩
  case xor =>
    obtain ⟨a, b, rfl⟩ := length_two hl
    show (SOp.evalsTo a (.coll .byte) && SOp.evalsTo b (.coll .byte)) = true ↔ _
    rw [Bool.and_eq_true, evalsTo_iff, evalsTo_iff]
    refine ⟨fun ⟨h, h'⟩ => .xor _ _ h h', fun h => ?_⟩
    cases h with
    | free _ _ h => exact absurd h hf
    | predicate _ _ _ _ h => simp at h
    | xor _ _ h h' => exact ⟨h, h'⟩
  case atleast =>
    obtain ⟨a, b, rfl⟩ := length_two hl
    show (SOp.evalsTo b (.coll .sigmaProp) && SOp.evalsTo a .int) = true ↔ _
    rw [Bool.and_eq_true, evalsTo_iff, evalsTo_iff]
    refine ⟨fun ⟨h, h'⟩ => .atleast _ _ h' h, fun h => ?_⟩
    cases h with
    | free _ _ h => exact absurd h hf
    | predicate _ _ _ _ h => simp at h
    | atleast _ _ h h' => exact ⟨h', h⟩
  case map =>
    obtain ⟨a, f, rfl⟩ := length_two hl
    refine (map_iff a f).trans ⟨fun ⟨u, r, ps, h, h'⟩ => h' ▸ .map _ u r ps h, fun h => ?_⟩
    cases h with
    | free _ _ h => exact absurd h hf
    | predicate _ _ _ _ h => simp at h
    | map _ u r ps h => exact ⟨u, r, ps, h, rfl⟩
  case filter =>
    obtain ⟨a, f, rfl⟩ := length_two hl
    refine (predicate_iff a f).trans ⟨fun ⟨u, ps, h, h'⟩ => h' ▸ .predicate _ _ u ps (by simp) h, fun h => ?_⟩
    cases h with
    | free _ _ h => exact absurd h hf
    | predicate _ _ u ps _ h => exact ⟨u, ps, h, rfl⟩
  case anyOf =>
    obtain ⟨a, f, rfl⟩ := length_two hl
    refine (predicate_iff a f).trans ⟨fun ⟨u, ps, h, h'⟩ => h' ▸ .predicate _ _ u ps (by simp) h, fun h => ?_⟩
    cases h with
    | free _ _ h => exact absurd h hf
    | predicate _ _ u ps _ h => exact ⟨u, ps, h, rfl⟩
  case forAll =>
    obtain ⟨a, f, rfl⟩ := length_two hl
    refine (predicate_iff a f).trans ⟨fun ⟨u, ps, h, h'⟩ => h' ▸ .predicate _ _ u ps (by simp) h, fun h => ?_⟩
    cases h with
    | free _ _ h => exact absurd h hf
    | predicate _ _ u ps _ h => exact ⟨u, ps, h, rfl⟩
  case optionGetOrElse =>
    obtain ⟨a, d, rfl⟩ := length_two hl
    refine (getOrElse_iff a d).trans ⟨fun ⟨u, h, h'⟩ => .getOrElse _ _ u h h', fun h => ?_⟩
    cases h with
    | free _ _ h => exact absurd h hf
    | predicate _ _ _ _ h => simp at h
    | getOrElse _ _ u h h' => exact ⟨u, h, h'⟩
  case slice =>
    obtain ⟨a, i, j, rfl⟩ := length_three hl
    show ((match a.postEval with | .coll _ => true | _ => false) && SOp.evalsTo i .int && SOp.evalsTo j .int) = true ↔ _
    rw [Bool.and_eq_true, Bool.and_eq_true, collTy_iff, evalsTo_iff, evalsTo_iff]
    refine ⟨fun ⟨⟨⟨u, h⟩, h'⟩, h''⟩ => .slice _ _ _ u h h' h'', fun h => ?_⟩
    cases h with
    | free _ _ h => exact absurd h hf
    | slice _ _ _ u h h' h'' => exact ⟨⟨⟨u, h⟩, h'⟩, h''⟩
  case substConstants =>
    obtain ⟨s, p, v, rfl⟩ := length_three hl
    show (SOp.evalsTo s (.coll .byte) && SOp.evalsTo p (.coll .int) && (match v.postEval with | .coll _ => true | _ => false)) = true ↔ _
    rw [Bool.and_eq_true, Bool.and_eq_true, collTy_iff, evalsTo_iff, evalsTo_iff]
    refine ⟨fun ⟨⟨h, h'⟩, ⟨u, h''⟩⟩ => .substConstants _ _ _ u h h' h'', fun h => ?_⟩
    cases h with
    | free _ _ h => exact absurd h hf
    | substConstants _ _ _ u h h' h'' => exact ⟨⟨h, h'⟩, ⟨u, h''⟩⟩

/-! ## Methods -/

mutual
theorem inst_withSubst (s : Subst) : ∀ t : SType, SType.withSubst s t = inst s.get t
  | .typeVar n => by rw [SType.withSubst, inst]
  | .option t => by rw [SType.withSubst, inst, inst_withSubst s t]
  | .coll t => by rw [SType.withSubst, inst, inst_withSubst s t]
  | .tuple l => by rw [SType.withSubst, inst, insts_withSubsts s l]
  | .func d r p => by
    rw [SType.withSubst, inst, insts_withSubsts s d, inst_withSubst s r]
    congr 1
    refine List.filter_congr fun v _ => ?_
    simp only [FMap.contains]
    cases FMap.get s v <;> rfl
  | .any | .unit | .bool | .byte | .short | .int | .long | .bigInt | .groupElement | .sigmaProp | .box | .avlTree | .context
  | .header | .preHeader | .global => by simp [SType.withSubst, inst]
theorem insts_withSubsts (s : Subst) : ∀ l : List SType, SType.withSubsts s l = insts s.get l
  | [] => rfl
  | t :: l => by rw [SType.withSubsts, insts, inst_withSubst s t, insts_withSubsts s l]
end

theorem methodRule_of {M : Byte → Byte → Option FuncSig} {t m : Byte} {sig : FuncSig} {actual : List SType}
    (h : specialize M t m actual = some sig) : MethodRule M t m sig actual := by
  unfold specialize at h
  cases hr : M t m with
  | none => rw [hr] at h; cases h
  | some raw =>
    rw [hr] at h
    cases hs : SType.unifyMany raw.dom actual with
    | none => simp [hs] at h
    | some s =>
      simp only [Option.bind_eq_bind, Option.bind_some, hs] at h
      split at h
      · next hc =>
        cases h
        rw [Bool.and_eq_true, typeList_iff] at hc
        refine ⟨raw, s.get, hr, ?_, hc.2, ?_⟩
        · rw [← insts_withSubsts]; exact hc.2
        · exact inst_withSubst s raw.range
      · cases h

/-! ## What holds at the nodes of a script that was read -/

theorem tpes_map : ∀ l : List (Expr G B), tpes l = l.map tpe
  | [] => rfl
  | e :: l => by rw [tpes, tpes_map l]; rfl

/-- A property of the table of variables that the parts of a node keep holds wherever a part is read. -/
theorem goodAll_child {utf8 : Bytes → Bool} {bwf : B → Prop} {R : Reader G B} (P : TStore → Prop) :
    ∀ (l : List (Expr G B)) (st : TStore), P st → (∀ c ∈ l, ∀ st, P st → P (after c st)) → GoodAll utf8 bwf R l st →
      ∀ c ∈ l, ∃ st', P st' ∧ Good utf8 bwf R c st'
  | [], _, _, _, _ => fun c hc => by cases hc
  | e :: l, st, hp, hk, hg => fun c hc => by
    rw [GoodAll] at hg
    rcases List.mem_cons.1 hc with rfl | hc
    · exact ⟨st, hp, hg.1⟩
    · exact goodAll_child P l (after e st) (hk e (List.mem_cons_self ..) st hp) (fun c hc => hk c (List.mem_cons_of_mem _ hc)) hg.2 c hc

theorem afterAll_keeps (P : TStore → Prop) : ∀ (l : List (Expr G B)) (st : TStore), P st → (∀ c ∈ l, ∀ st, P st → P (after c st)) →
    P (afterAll l st)
  | [], _, hp, _ => hp
  | e :: l, st, hp, hk => by
    rw [afterAll]
    exact afterAll_keeps P l (after e st) (hk e (List.mem_cons_self ..) st hp) (fun c hc => hk c (List.mem_cons_of_mem _ hc))

theorem after_keeps (P : TStore → Prop) (e : Expr G B) (st : TStore) (hp : P st) (hk : ∀ c ∈ children e, ∀ st, P st → P (after c st))
    (hfun : ∀ args body, e = .func args body → P (insertArgs st args))
    (hval : ∀ id rhs, e = .valDef id rhs → ∀ st, P st → P (st.insert id rhs.tpe)) : P (after e st) := by
  have m1 : ∀ {a : Expr G B} {l}, a ∈ a :: l := List.mem_cons_self ..
  have m2 : ∀ {a b : Expr G B} {l}, a ∈ b :: a :: l := List.mem_cons_of_mem _ (List.mem_cons_self ..)
  have m3 : ∀ {a b c : Expr G B} {l}, a ∈ b :: c :: a :: l := List.mem_cons_of_mem _ (List.mem_cons_of_mem _ (List.mem_cons_self ..))
  cases e <;> simp only [after, children] at hk ⊢
  case op => exact afterAll_keeps P _ _ hp hk
  case bin => exact hk _ m2 _ (hk _ m1 _ hp)
  case cast => exact hk _ m1 _ hp
  case extractReg => exact hk _ m1 _ hp
  case selectField => exact hk _ m1 _ hp
  case deserReg => exact afterAll_keeps P _ _ hp hk
  case byIndex =>
    exact afterAll_keeps P _ _ (hk _ m2 _ (hk _ m1 _ hp)) (fun c hc => hk c (List.mem_cons_of_mem _ (List.mem_cons_of_mem _ hc)))
  case createAvl =>
    exact afterAll_keeps P _ _ (hk _ m3 _ (hk _ m2 _ (hk _ m1 _ hp)))
      (fun c hc => hk c (List.mem_cons_of_mem _ (List.mem_cons_of_mem _ (List.mem_cons_of_mem _ hc))))
  case coll => exact afterAll_keeps P _ _ hp hk
  case tuple => exact afterAll_keeps P _ _ hp hk
  case sigma => exact afterAll_keeps P _ _ hp hk
  case func => exact hk _ m1 _ (hfun _ _ rfl)
  case apply => exact afterAll_keeps P _ _ (hk _ m1 _ hp) (fun c hc => hk c (List.mem_cons_of_mem _ hc))
  case block => exact hk _ m1 _ (afterAll_keeps P _ _ hp (fun c hc => hk c (List.mem_cons_of_mem _ hc)))
  case valDef => exact hval _ _ rfl _ (hk _ m1 _ hp)
  case method => exact afterAll_keeps P _ _ (hk _ m1 _ hp) (fun c hc => hk c (List.mem_cons_of_mem _ hc))
  case property => exact hk _ m1 _ hp
  all_goals exact hp

theorem good_child {utf8 : Bytes → Bool} {bwf : B → Prop} {R : Reader G B} (P : TStore → Prop) (e : Expr G B) (st : TStore) (hp : P st)
    (hk : ∀ c ∈ children e, ∀ st, P st → P (after c st)) (hfun : ∀ args body, e = .func args body → P (insertArgs st args))
    (hg : Good utf8 bwf R e st) : ∀ c ∈ children e, ∃ st', P st' ∧ Good utf8 bwf R c st' := by
  have m1 : ∀ {a : Expr G B} {l}, a ∈ a :: l := List.mem_cons_self ..
  have m2 : ∀ {a b : Expr G B} {l}, a ∈ b :: a :: l := List.mem_cons_of_mem _ (List.mem_cons_self ..)
  have m3 : ∀ {a b c : Expr G B} {l}, a ∈ b :: c :: a :: l := List.mem_cons_of_mem _ (List.mem_cons_of_mem _ (List.mem_cons_self ..))
  intro c hc
  cases e <;> simp only [children] at hk hc <;> rw [Good] at hg
  case op => exact goodAll_child P _ _ hp hk hg.2.2 c hc
  case bin =>
    rcases List.mem_cons.1 hc with rfl | hc
    · exact ⟨_, hp, hg.2.1⟩
    · cases List.mem_singleton.1 hc; exact ⟨_, hk _ m1 _ hp, hg.2.2⟩
  case cast => cases List.mem_singleton.1 hc; exact ⟨_, hp, hg.2⟩
  case extractReg => cases List.mem_singleton.1 hc; exact ⟨_, hp, hg.2.2⟩
  case selectField => cases List.mem_singleton.1 hc; exact ⟨_, hp, hg.2⟩
  case deserReg => exact goodAll_child P _ _ hp hk hg.2.2 c hc
  case byIndex =>
    rcases List.mem_cons.1 hc with rfl | hc
    · exact ⟨_, hp, hg.2.2.1⟩
    rcases List.mem_cons.1 hc with rfl | hc
    · exact ⟨_, hk _ m1 _ hp, hg.2.2.2.1⟩
    · exact goodAll_child P _ _ (hk _ m2 _ (hk _ m1 _ hp)) (fun c hc => hk c (List.mem_cons_of_mem _ (List.mem_cons_of_mem _ hc)))
        hg.2.2.2.2 c hc
  case createAvl =>
    rcases List.mem_cons.1 hc with rfl | hc
    · exact ⟨_, hp, hg.2.2.1⟩
    rcases List.mem_cons.1 hc with rfl | hc
    · exact ⟨_, hk _ m1 _ hp, hg.2.2.2.1⟩
    rcases List.mem_cons.1 hc with rfl | hc
    · exact ⟨_, hk _ m2 _ (hk _ m1 _ hp), hg.2.2.2.2.1⟩
    · exact goodAll_child P _ _ (hk _ m3 _ (hk _ m2 _ (hk _ m1 _ hp)))
        (fun c hc => hk c (List.mem_cons_of_mem _ (List.mem_cons_of_mem _ (List.mem_cons_of_mem _ hc)))) hg.2.2.2.2.2 c hc
  case coll => exact goodAll_child P _ _ hp hk hg.2.2 c hc
  case tuple => exact goodAll_child P _ _ hp hk hg.2.2 c hc
  case sigma => exact goodAll_child P _ _ hp hk hg.2.2.2 c hc
  case func => cases List.mem_singleton.1 hc; exact ⟨_, hfun _ _ rfl, hg.2.2⟩
  case apply =>
    rcases List.mem_cons.1 hc with rfl | hc
    · exact ⟨_, hp, hg.2.2.1⟩
    · exact goodAll_child P _ _ (hk _ m1 _ hp) (fun c hc => hk c (List.mem_cons_of_mem _ hc)) hg.2.2.2 c hc
  case block =>
    rcases List.mem_cons.1 hc with rfl | hc
    · exact ⟨_, afterAll_keeps P _ _ hp (fun c hc => hk c (List.mem_cons_of_mem _ hc)), hg.2.2⟩
    · exact goodAll_child P _ _ hp (fun c hc => hk c (List.mem_cons_of_mem _ hc)) hg.2.1 c hc
  case valDef => cases List.mem_singleton.1 hc; exact ⟨_, hp, hg⟩
  case method =>
    rcases List.mem_cons.1 hc with rfl | hc
    · exact ⟨_, hp, hg.2.2.1⟩
    · exact goodAll_child P _ _ (hk _ m1 _ hp) (fun c hc => hk c (List.mem_cons_of_mem _ hc)) hg.2.2.2 c hc
  case property => cases List.mem_singleton.1 hc; exact ⟨_, hp, hg.2⟩
  all_goals cases hc

theorem child_size {e c : Expr G B} (h : c ∈ children e) : sizeOf c < sizeOf e := by
  have hl : ∀ {l : List (Expr G B)}, c ∈ l → sizeOf c < sizeOf l := fun h => List.sizeOf_lt_of_mem h
  cases e <;> simp only [children, List.mem_cons, List.not_mem_nil, or_false] at h
  all_goals try simp only [Expr.op.sizeOf_spec, Expr.bin.sizeOf_spec, Expr.cast.sizeOf_spec, Expr.extractReg.sizeOf_spec, Expr.selectField.sizeOf_spec,
    Expr.deserReg.sizeOf_spec, Expr.byIndex.sizeOf_spec, Expr.createAvl.sizeOf_spec, Expr.coll.sizeOf_spec, Expr.tuple.sizeOf_spec,
    Expr.sigma.sizeOf_spec, Expr.func.sizeOf_spec, Expr.apply.sizeOf_spec, Expr.block.sizeOf_spec, Expr.valDef.sizeOf_spec,
    Expr.method.sizeOf_spec, Expr.property.sizeOf_spec]
  all_goals first
    | (subst h; omega)
    | (have := hl h; omega)
    | (rcases h with rfl | rfl <;> omega)
    | (rcases h with rfl | h
       · omega
       · have := hl h; omega)
    | (rcases h with rfl | rfl | h
       · omega
       · omega
       · have := hl h; omega)
    | (rcases h with rfl | rfl | rfl | h
       · omega
       · omega
       · omega
       · have := hl h; omega)

theorem good_node {utf8 : Bytes → Bool} {bwf : B → Prop} {R R' : Reader G B} (hm : R'.methods = R.methods)
    (hk : ∀ (i : Nat) c, R'.consts[i]? = some c → R.subst = false ∧ R.consts[i]? = some c) (e : Expr G B) (st : TStore)
    (hg : Good utf8 bwf R' e st) : NodeRule utf8 bwf R e := by
  cases e <;> rw [Good] at hg <;> simp only [NodeRule]
  case const => exact hg
  case placeholder => obtain ⟨c, h1, h2⟩ := hg; exact ⟨(hk _ _ h1).1, c, (hk _ _ h1).2, h2⟩
  case op o args => exact ⟨hg.1, (check_iff o _ ((tpes_length args).trans hg.1)).1 hg.2.1⟩
  case cast => exact hg.1
  case extractReg => exact ⟨hg.1, (evalsTo_iff _ _).1 hg.2.1⟩
  case selectField e i =>
    have h := hg.1
    unfold selectOk at h
    rw [Bool.and_eq_true, decide_eq_true_iff] at h
    obtain ⟨h1, h2⟩ := h
    split at h2
    · next ts ht =>
      rw [Option.isSome_iff_exists] at h2
      obtain ⟨a, ha⟩ := h2
      have := (List.getElem?_eq_some_iff.1 ha).1
      exact ⟨ts, ht, h1, by omega⟩
    · cases h2
  case getVar => exact hg
  case deserCtx => exact hg
  case deserReg => exact hg.1
  case byIndex e i d =>
    have h := hg.1
    unfold byIndexOk at h
    split at h
    · next u hu =>
      rw [Bool.and_eq_true, evalsTo_iff, List.all_eq_true] at h
      refine ⟨u, (yields_iff _ _).2 hu, h.1, fun x hx => (evalsTo_iff _ _).1 (h.2 _ ?_)⟩
      rw [tpes_map]; exact List.mem_map_of_mem hx
    · cases h
  case createAvl f d k v =>
    have h := hg.1
    unfold createAvlOk at h
    rw [Bool.and_eq_true, Bool.and_eq_true, Bool.and_eq_true, evalsTo_iff, evalsTo_iff, evalsTo_iff, List.all_eq_true] at h
    refine ⟨h.1.1.1, h.1.1.2, h.1.2, fun x hx => (evalsTo_iff _ _).1 (h.2 _ ?_)⟩
    rw [tpes_map]; exact List.mem_map_of_mem hx
  case coll => exact hg.1
  case tuple => exact ⟨hg.1, hg.2.1⟩
  case sigma items =>
    have h := hg.1
    unfold allSigma at h
    rw [List.all_eq_true] at h
    refine ⟨hg.2.1, hg.2.2.1, fun x hx => (evalsTo_iff _ _).1 (h _ ?_)⟩
    rw [tpes_map]; exact List.mem_map_of_mem hx
  case func => exact hg.2.1
  case apply f args =>
    have h := hg.1
    unfold applyOk at h
    split at h
    · next d r ps hf =>
      rw [typeList_iff] at h
      exact ⟨r, ps, by rw [hf, h]⟩
    · cases h
  case method => exact methodRule_of (hm ▸ hg.1)
  case property => exact methodRule_of (hm ▸ hg.1)

theorem good_everywhere {utf8 : Bytes → Bool} {bwf : B → Prop} {R R' : Reader G B} (hm : R'.methods = R.methods)
    (hk : ∀ (i : Nat) c, R'.consts[i]? = some c → R.subst = false ∧ R.consts[i]? = some c) : ∀ (e : Expr G B) (st : TStore),
    Good utf8 bwf R' e st → Everywhere (NodeRule utf8 bwf R) e := by
  suffices h : ∀ n (e : Expr G B), sizeOf e < n → ∀ st, Good utf8 bwf R' e st → Everywhere (NodeRule utf8 bwf R) e from
    fun e st hg => h _ e (Nat.lt_succ_self _) st hg
  intro n
  induction n with
  | zero => exact fun e h => absurd h (by omega)
  | succ n ih =>
    intro e hs st hg
    refine .mk (good_node hm hk e st hg) fun c hc => ?_
    obtain ⟨st', _, h'⟩ := good_child (fun _ => True) e st trivial (fun _ _ _ _ => trivial) (fun _ _ _ => trivial) hg c hc
    exact ih c (by have := child_size hc; omega) st' h'

/-! ## From accepted to typed -/

/-- A function type has no type parameters. -/
def Plain (t : SType) : Prop := ∀ d r ps, t = .func d r ps → ps = []

theorem yields_value {t u : SType} (h : Yields t u) (hf : isFuncTy t = false) : t = u := by
  cases h with
  | value => rfl
  | result => cases hf

/-- The operators whose last operand is a function. -/
def takesFunction (o : SOp) : Prop := o ∈ [SOp.map, .filter, .anyOf, .forAll, .fold]

instance (o : SOp) : Decidable (takesFunction o) := inferInstanceAs (Decidable (_ ∈ _))

theorem opOk_of_rule {o : SOp} {ts : List SType} (h : OpRule o ts) (hf : o ∈ freeOps → OpOk o ts)
    (hv : ∀ t ∈ (if takesFunction o then ts.dropLast else ts), isFuncTy t = false) (hp : ∀ t ∈ ts, Plain t) : OpOk o ts := by
  cases h with
  | free _ _ h => exact hf h
  | unary _ t u h ht =>
    have e : isFuncTy t = false := hv t (by
      have : ¬ takesFunction o := by
        intro hc
        simp [takesFunction] at hc
        simp [unaryOps] at h
        rcases hc with rfl | rfl | rfl | rfl | rfl <;> simp at h
      rw [if_neg this]; simp)
    cases yields_value ht e
    simp only [unaryOps, List.mem_cons, Prod.mk.injEq, List.not_mem_nil, or_false] at h
    rcases h with ⟨rfl, rfl⟩ | ⟨rfl, rfl⟩ | ⟨rfl, rfl⟩ | ⟨rfl, rfl⟩ | ⟨rfl, rfl⟩ | ⟨rfl, rfl⟩ | ⟨rfl, rfl⟩ | ⟨rfl, rfl⟩ | ⟨rfl, rfl⟩ |
      ⟨rfl, rfl⟩ | ⟨rfl, rfl⟩ | ⟨rfl, rfl⟩ | ⟨rfl, rfl⟩ | ⟨rfl, rfl⟩ | ⟨rfl, rfl⟩ | ⟨rfl, rfl⟩ <;> constructor
  | number _ t n h ht =>
    simp only [List.mem_cons, List.not_mem_nil, or_false] at h
    rcases h with rfl | rfl
    · cases yields_value ht (hv t (by simp [takesFunction])); constructor
    · cases yields_value ht (hv t (by simp [takesFunction])); constructor
  | option _ t u h ht =>
    simp only [List.mem_cons, List.not_mem_nil, or_false] at h
    rcases h with rfl | rfl
    · cases yields_value ht (hv t (by simp [takesFunction])); constructor
    · cases yields_value ht (hv t (by simp [takesFunction])); constructor
  | sizeOf t u ht => cases yields_value ht (hv t (by simp [takesFunction])); constructor
  | append a b u ha hb =>
    cases yields_value ha (hv a (by simp [takesFunction])); cases yields_value hb (hv b (by simp [takesFunction])); constructor
  | xor a b ha hb =>
    cases yields_value ha (hv a (by simp [takesFunction])); cases yields_value hb (hv b (by simp [takesFunction])); constructor
  | atleast a b ha hb =>
    cases yields_value ha (hv a (by simp [takesFunction])); cases yields_value hb (hv b (by simp [takesFunction])); constructor
  | map a u r ps ha =>
    cases yields_value ha (hv a (by simp [takesFunction])); cases hp (.func [u] r ps) (by simp) _ _ _ rfl; constructor
  | predicate _ a u ps h ha =>
    simp only [List.mem_cons, List.not_mem_nil, or_false] at h
    cases hp (.func [u] .bool ps) (by simp) _ _ _ rfl
    rcases h with rfl | rfl | rfl
    · cases yields_value ha (hv a (by simp [takesFunction])); constructor
    · cases yields_value ha (hv a (by simp [takesFunction])); constructor
    · cases yields_value ha (hv a (by simp [takesFunction])); constructor
  | getOrElse a d u ha hd =>
    cases yields_value ha (hv a (by simp [takesFunction])); cases yields_value hd (hv d (by simp [takesFunction])); constructor
  | slice a i j u ha hi hj =>
    cases yields_value ha (hv a (by simp [takesFunction])); cases yields_value hi (hv i (by simp [takesFunction]))
    cases yields_value hj (hv j (by simp [takesFunction])); constructor
  | substConstants s p v u hs hpp hvv =>
    cases yields_value hs (hv s (by simp [takesFunction])); cases yields_value hpp (hv p (by simp [takesFunction]))
    cases yields_value hvv (hv v (by simp [takesFunction])); constructor

theorem insertArgs_get : ∀ (args : List (BitVec 32 × SType)) (st : TStore) (id : BitVec 32), id ∉ args.map Prod.fst →
    FMap.get (insertArgs st args) id = FMap.get st id
  | [], _, _, _ => rfl
  | a :: l, st, id, h => by
    simp only [List.map_cons, List.mem_cons, not_or] at h
    rw [insertArgs, insertArgs_get l _ id h.2, FMap.get_insert, if_neg (fun e => h.1 e.symm)]

theorem insertArgs_mem : ∀ (args : List (BitVec 32 × SType)) (st : TStore), (args.map Prod.fst).Nodup → ∀ a ∈ args,
    FMap.get (insertArgs st args) a.1 = some a.2
  | [], _, _ => fun a h => by cases h
  | b :: l, st, hn => fun a h => by
    rw [List.map_cons, List.nodup_cons] at hn
    rw [insertArgs]
    rcases List.mem_cons.1 h with rfl | h
    · rw [insertArgs_get l _ _ hn.1, FMap.get_insert, if_pos rfl]
    · exact insertArgs_mem l _ hn.2 a h

/-- The definitions of a block enter the table; what is in scope before stays. -/
theorem defs_keep (ids : List (BitVec 32)) (ds : List (BitVec 32 × Expr G B)) (st : TStore)
    (hd : ∀ d ∈ ds, ∀ st id, id ∈ ids → FMap.get (after d.2 st) id = FMap.get st id) (hf : ∀ d ∈ ds, d.1 ∉ ids) :
    ∀ id ∈ ids, FMap.get (afterAll (ds.map fun d => Expr.valDef d.1 d.2) st) id = FMap.get st id := by
  induction ds generalizing st with
  | nil => exact fun _ _ => rfl
  | cons d l ih =>
    intro id hi
    rw [List.map_cons, afterAll, ih _ (fun d hd' => hd d (List.mem_cons_of_mem _ hd')) (fun d hd' => hf d (List.mem_cons_of_mem _ hd')) id hi, after,
      FMap.get_insert, if_neg, hd d (List.mem_cons_self ..) st id hi]
    rintro rfl
    exact hf d (List.mem_cons_self ..) hi

theorem scoped_keeps {ids : List (BitVec 32)} {e : Expr G B} (h : Scoped ids e) : ∀ (st : TStore) (id : BitVec 32), id ∈ ids →
    FMap.get (after e st) id = FMap.get st id := by
  induction h with
  | use => intro st id _; rfl
  | func ids args body hn hf _ ih =>
    intro st id hi
    rw [after, ih _ id (List.mem_append_right _ hi), insertArgs_get]
    intro hm
    obtain ⟨a, ha, rfl⟩ := List.mem_map.1 hm
    exact hf a ha hi
  | block ids ds r hd hf _ ihd ihr =>
    intro st id hi
    rw [after, ihr _ id (List.mem_append_right _ hi)]
    have hs : ∀ d ∈ ds, ∃ pre post, ds = pre ++ d :: post := fun d h => List.mem_iff_append.1 h
    refine defs_keep ids ds st (fun d hm st id hi => ?_) (fun d hm hc => ?_) id hi
    · obtain ⟨pre, post, e⟩ := hs d hm
      exact ihd pre d post e st id (List.mem_append_right _ hi)
    · obtain ⟨pre, post, e⟩ := hs d hm
      exact hf pre d post e (List.mem_append_right _ hc)
  | other ids e hne hc ih =>
    intro st id hi
    refine after_keeps (fun s => FMap.get s id = FMap.get st id) e st rfl (fun c hc' s hs => (ih c hc' s id hi).trans hs) ?_ ?_
    · rintro args body rfl; exact hne.elim
    · rintro id rhs rfl; exact hne.elim

theorem define_append (Γ : Scope) (a b : List (BitVec 32 × Expr G B)) : Γ.define (a ++ b) = (Γ.define a).define b := by
  simp [Scope.define]

theorem define_mem_ids (ds : List (BitVec 32 × Expr G B)) : ∀ (Γ : Scope) (id : BitVec 32),
    id ∈ (Γ.define ds).map Prod.fst ↔ id ∈ ds.map Prod.fst ++ Γ.map Prod.fst := by
  induction ds with
  | nil => intro Γ id; simp [Scope.define]
  | cons d l ih =>
    intro Γ id
    have := ih ((d.1, d.2.tpe) :: Γ) id
    simp only [Scope.define, List.foldl_cons] at this ⊢
    rw [this]
    simp only [List.map_cons, List.mem_append, List.mem_cons]
    tauto

theorem goodAll_append {utf8 : Bytes → Bool} {bwf : B → Prop} {R : Reader G B} : ∀ (a b : List (Expr G B)) (st : TStore),
    GoodAll utf8 bwf R (a ++ b) st → GoodAll utf8 bwf R a st ∧ GoodAll utf8 bwf R b (afterAll a st)
  | [], b, st, h => ⟨by rw [GoodAll]; trivial, h⟩
  | e :: a, b, st, h => by
    rw [List.cons_append, GoodAll] at h
    obtain ⟨h1, h2⟩ := goodAll_append a b _ h.2
    rw [GoodAll, afterAll]
    exact ⟨⟨h.1, h1⟩, h2⟩

theorem afterAll_append : ∀ (a b : List (Expr G B)) (st : TStore), afterAll (a ++ b) st = afterAll b (afterAll a st)
  | [], _, _ => rfl
  | e :: a, b, st => by rw [List.cons_append, afterAll, afterAll, afterAll_append a b]

/-- The reader's table has the variables in scope. -/
def Knows (Γ : Scope) (st : TStore) : Prop := ∀ x ∈ Γ, FMap.get st x.1 = some x.2

theorem ready_typed {utf8 : Bytes → Bool} {D : Decls B} {R : Reader G B} (hm : R.methods = methodTable) (hR : R.consts = [])
    {ids : List (BitVec 32)} {e : Expr G B} (h : Scoped ids e) :
    ∀ (st : TStore) (Γ : Scope), (∀ id, id ∈ Γ.map Prod.fst ↔ id ∈ ids) → Knows Γ st → (∀ x ∈ Γ, Plain x.2) → Good utf8 D.box R e st →
      FirstOrder e → Everywhere (Residue D) e → Typed D Γ e ∧ Plain e.tpe := by
  induction h with
  | use ids id t hi =>
    intro st Γ hids hk hp hg _ _
    rw [Good] at hg
    obtain ⟨x, hx, rfl⟩ := List.mem_map.1 ((hids id).2 hi)
    have e := (hk x hx).symm.trans hg
    cases e
    exact ⟨.valUse _ _ _ hx, hp x hx⟩
  | func ids args body hn hf _ ih =>
    intro st Γ hids hk hp hg hF hD
    rw [Good] at hg
    have hfresh : ∀ a ∈ args, a.1 ∉ Γ.map Prod.fst := fun a ha hc => hf a ha ((hids _).1 hc)
    refine ⟨.func _ _ _ hn hfresh (fun a ha => (hg.2.1 a ha).2) hD.here ?_, ?_⟩
    · refine (ih (insertArgs st args) (args ++ Γ) ?_ ?_ ?_ hg.2.2 (hF.child (by simp [children])) (hD.child (by simp [children]))).1
      · intro id; rw [List.map_append, List.mem_append, List.mem_append, hids]
      · intro x hx
        rcases List.mem_append.1 hx with hx | hx
        · exact insertArgs_mem args st hn x hx
        · rw [insertArgs_get args st]
          · exact hk x hx
          · intro hc
            obtain ⟨a, ha, e⟩ := List.mem_map.1 hc
            exact hfresh a ha (e ▸ List.mem_map_of_mem hx)
      · intro x hx
        rcases List.mem_append.1 hx with hx | hx
        · intro d r ps e
          have := (hg.2.1 x hx).2
          rw [e] at this
          exact absurd this (by simp [NoFunc])
        · exact hp x hx
    · intro d r ps e
      simp only [Expr.tpe, SType.func.injEq] at e
      exact e.2.2.symm
  | block ids ds r hd hf hr ihd ihr =>
    intro st Γ hids hk hp hg hF hD
    rw [Good] at hg
    -- the table and the scope along the definitions
    have key : ∀ pre post, ds = pre ++ post → Knows (Γ.define pre) (afterAll (pre.map fun d => Expr.valDef d.1 d.2) st) ∧
        (∀ x ∈ Γ.define pre, Plain x.2) ∧ ∀ d l, post = d :: l → Typed D (Γ.define pre) d.2 ∧ Plain d.2.tpe := by
      intro pre
      induction pre using List.reverseRecOn with
      | nil =>
        intro post e
        refine ⟨hk, hp, fun d l e' => ?_⟩
        subst e'
        have hg1 := hg.2.1
        rw [e, List.nil_append, List.map_cons, GoodAll, Good] at hg1
        exact ihd [] d l e st Γ (by simpa using hids) hk hp hg1.1
          ((hF.child (List.mem_cons_of_mem _ (by rw [e]; exact List.mem_cons_self ..))).child (List.mem_cons_self ..))
          ((hD.child (List.mem_cons_of_mem _ (by rw [e]; exact List.mem_cons_self ..))).child (List.mem_cons_self ..))
      | append_singleton pre d0 ihp =>
        intro post e
        have e0 : ds = pre ++ d0 :: post := by rw [e, List.append_assoc]; rfl
        obtain ⟨k0, p0, t0⟩ := ihp (d0 :: post) e0
        have hd0 := t0 d0 post rfl
        have hdef : Γ.define (pre ++ [d0]) = (d0.1, d0.2.tpe) :: Γ.define pre := by rw [define_append]; rfl
        have hst : afterAll ((pre ++ [d0]).map fun d => Expr.valDef d.1 d.2) st =
            (after d0.2 (afterAll (pre.map fun d => Expr.valDef d.1 d.2) st)).insert d0.1 d0.2.tpe := by
          rw [List.map_append, afterAll_append]
          show after (Expr.valDef d0.1 d0.2) _ = _
          rw [after]
        have hids0 : ∀ id, id ∈ (Γ.define pre).map Prod.fst ↔ id ∈ pre.map Prod.fst ++ ids := fun id => by
          rw [define_mem_ids, List.mem_append, List.mem_append, hids]
        have hfr := hf pre d0 post e0
        have k1 : Knows (Γ.define (pre ++ [d0])) (afterAll ((pre ++ [d0]).map fun d => Expr.valDef d.1 d.2) st) := by
          rw [hdef, hst]
          intro x hx
          rcases List.mem_cons.1 hx with rfl | hx
          · rw [FMap.get_insert, if_pos rfl]
          · have hi := (hids0 x.1).1 (List.mem_map_of_mem hx)
            rw [FMap.get_insert, if_neg, scoped_keeps (hd pre d0 post e0) _ _ hi]
            · exact k0 x hx
            · intro hc
              rw [← hc] at hi
              exact hfr hi
        have p1 : ∀ x ∈ Γ.define (pre ++ [d0]), Plain x.2 := by
          rw [hdef]
          intro x hx
          rcases List.mem_cons.1 hx with rfl | hx
          · exact hd0.2
          · exact p0 x hx
        refine ⟨k1, p1, fun d l e' => ?_⟩
        subst e'
        have hg1 := hg.2.1
        rw [e, List.map_append] at hg1
        have hg2 := (goodAll_append _ _ _ hg1).2
        rw [List.map_cons, GoodAll, Good] at hg2
        have hids1 : ∀ id, id ∈ (Γ.define (pre ++ [d0])).map Prod.fst ↔ id ∈ (pre ++ [d0]).map Prod.fst ++ ids := fun id => by
          rw [define_mem_ids, List.mem_append, List.mem_append, hids]
        have hmem : Expr.valDef d.1 d.2 ∈ children (Expr.block (ds.map fun d => Expr.valDef d.1 d.2) r) :=
          List.mem_cons_of_mem _ (by rw [e]; exact List.mem_map_of_mem (f := fun d : BitVec 32 × Expr G B => Expr.valDef d.1 d.2) (List.mem_append_right _ (List.mem_cons_self ..)))
        exact ihd (pre ++ [d0]) d l e _ _ hids1 k1 p1 hg2.1 ((hF.child hmem).child (List.mem_cons_self ..))
          ((hD.child hmem).child (List.mem_cons_self ..))
    obtain ⟨kE, pE, _⟩ := key ds [] (by simp)
    have hidsE : ∀ id, id ∈ (Γ.define ds).map Prod.fst ↔ id ∈ ds.map Prod.fst ++ ids := fun id => by
      rw [define_mem_ids, List.mem_append, List.mem_append, hids]
    have hrT := ihr _ (Γ.define ds) hidsE kE pE hg.2.2 (hF.child (List.mem_cons_self ..)) (hD.child (List.mem_cons_self ..))
    refine ⟨.block _ _ _ (fun pre d post e => ((key pre (d :: post) e).2.2 d post rfl).1) (fun pre d post e hc => ?_) hrT.1 hD.here, hrT.2⟩
    rw [define_mem_ids, List.mem_append, hids] at hc
    exact hf pre d post e (List.mem_append.2 hc)
  | other ids e hne hc ih =>
    intro st Γ hids hk hp hg hF hD
    have hchild : ∀ c ∈ children e, Typed D Γ c ∧ Plain c.tpe := by
      intro c hcc
      obtain ⟨st', hP, hg'⟩ := good_child (fun s => Knows Γ s) e st hk
        (fun c hc' s hs x hx => (scoped_keeps (hc c hc') s x.1 ((hids _).1 (List.mem_map_of_mem hx))).trans (hs x hx))
        (by rintro args body rfl; exact hne.elim) hg c hcc
      exact ih c hcc st' Γ hids hP hp hg' (hF.child hcc) (hD.child hcc)
    have hplain : Plain e.tpe := by
      intro d r ps he
      have := hF.here.2 (by rw [he]; rfl)
      cases e <;> first | exact hne.elim | cases this
    refine ⟨?_, hplain⟩
    have hN := good_node (R := R) rfl (fun i c hi => by rw [hR] at hi; cases hi) e st hg
    have hV := hF.here.1
    have hD' := hD.here
    have m1 : ∀ {a : Expr G B} {l}, a ∈ a :: l := List.mem_cons_self ..
    have m2 : ∀ {a b : Expr G B} {l}, a ∈ b :: a :: l := List.mem_cons_of_mem _ (List.mem_cons_self ..)
    have m3 : ∀ {a b c : Expr G B} {l}, a ∈ b :: c :: a :: l := List.mem_cons_of_mem _ (List.mem_cons_of_mem _ (List.mem_cons_self ..))
    cases e <;> simp only [NodeRule, children, valueParts, Residue] at hN hchild hV hD'
    case const c => exact .const _ _ hN.2.2
    case placeholder => obtain ⟨_, c, h, _⟩ := hN; rw [hR] at h; cases h
    case valUse => exact hne.elim
    case bools => exact .bools _ _
    case op o args =>
      refine .op _ _ _ (fun c hc => (hchild c hc).1) (opOk_of_rule hN.2 hD' ?_ ?_)
      · intro t ht
        have : ∀ t ∈ (if takesFunction o then args.dropLast else args).map tpe, isFuncTy t = false := by
          intro t ht
          obtain ⟨x, hx, rfl⟩ := List.mem_map.1 ht
          exact hV x hx
        refine this t ?_
        rw [tpes_map] at ht
        split at ht
        · rw [if_pos ‹_›, List.map_dropLast]; exact ht
        · rw [if_neg ‹_›]; exact ht
      · intro t ht
        rw [tpes_map] at ht
        obtain ⟨x, hx, rfl⟩ := List.mem_map.1 ht
        exact (hchild x hx).2
    case bin k l r => exact .bin _ _ _ _ (hchild l m1).1 (hchild r m2).1 hD'
    case cast => exact .cast _ _ _ _ (hchild _ m1).1
    case extractReg => exact .extractReg _ _ _ _ (hchild _ m1).1 (yields_value hN.2 (hV _ m1)) hD'
    case selectField => obtain ⟨ts, h1, h2, h3⟩ := hN; exact .selectField _ _ _ ts (hchild _ m1).1 h1 (by omega)
    case getVar => exact .getVar _ _ _ hD'
    case deserCtx => exact .deserCtx _ _ _ hD'
    case deserReg => exact .deserReg _ _ _ _ (fun c hc => (hchild c hc).1) hD'
    case byIndex e i d =>
      obtain ⟨u, h1, h2, h3⟩ := hN
      exact .byIndex _ _ _ _ u (hchild _ m1).1 (hchild _ m2).1
        (fun x hx => (hchild x (List.mem_cons_of_mem _ (List.mem_cons_of_mem _ hx))).1) (yields_value h1 (hV _ m1)) (yields_value h2 (hV _ m2))
        (fun x hx => yields_value (h3 x hx) (hV _ (List.mem_cons_of_mem _ (List.mem_cons_of_mem _ hx))))
    case createAvl f d k v =>
      obtain ⟨h1, h2, h3, h4⟩ := hN
      exact .createAvl _ _ _ _ _ (hchild _ m1).1 (hchild _ m2).1 (hchild _ m3).1
        (fun x hx => (hchild x (List.mem_cons_of_mem _ (List.mem_cons_of_mem _ (List.mem_cons_of_mem _ hx)))).1) (yields_value h1 (hV _ m1))
        (yields_value h2 (hV _ m2)) (yields_value h3 (hV _ m3))
        (fun x hx => yields_value (h4 x hx) (hV _ (List.mem_cons_of_mem _ (List.mem_cons_of_mem _ (List.mem_cons_of_mem _ hx)))))
    case coll => exact .coll _ _ _ (fun c hc => (hchild c hc).1) hD'
    case tuple => exact .tuple _ _ (fun c hc => (hchild c hc).1)
    case sigma => exact .sigma _ _ _ (fun c hc => (hchild c hc).1) (fun x hx => yields_value (hN.2.2 x hx) (hV x hx))
    case func => exact hne.elim
    case apply f args =>
      obtain ⟨r, ps, h⟩ := hN
      have := (hchild f m1).2 _ _ _ h
      subst this
      exact .apply _ _ _ r (hchild f m1).1 (fun c hc => (hchild c (List.mem_cons_of_mem _ hc)).1) h
    case block => exact hne.elim
    case valDef => exact hne.elim
    case method =>
      rw [Good, hm] at hg
      exact .method _ _ _ _ _ _ (hchild _ m1).1 (fun c hc => (hchild c (List.mem_cons_of_mem _ hc)).1) hg.1 hD'
    case property =>
      rw [Good, hm] at hg
      exact .property _ _ _ _ _ (hchild _ m1).1 hg.1 hD'

end Verif
