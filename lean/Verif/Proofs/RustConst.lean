import Verif.Spec.RustConst
import Verif.Spec.SType

/-!
# Lemmas about constants made from Rust values
-/

set_option linter.unusedSimpArgs false
set_option linter.unusedVariables false

namespace Verif.RTy
open Spec

variable {G B : Type}

theorem extractItems_map {α : Type} (f : Literal G B → Option α) (g : α → Literal G B) (l : List α)
    (h : ∀ x ∈ l, f (g x) = some x) : extractItems f (l.map g) = some l := by
  induction l with
  | nil => rfl
  | cons a l ih =>
    simp only [List.map_cons, extractItems, h a (by simp), ih fun x hx => h x (by simp [hx])]
    rfl

mutual
theorem extract_toConst : (t : RTy) → (x : t.Val G B) → extract t (toConst t x).v = some x
  | .unit, _ => by simp only [toConst, extract]; rfl
  | .bool, _ => by simp only [toConst, extract]
  | .i8, _ => by simp only [toConst, extract]
  | .i16, _ => by simp only [toConst, extract]
  | .i32, _ => by simp only [toConst, extract]
  | .i64, _ => by simp only [toConst, extract]
  | .bigInt, _ => by simp only [toConst, extract]
  | .point, _ => by simp only [toConst, extract]
  | .sigmaProp, _ => by simp only [toConst, extract]
  | .avlTree, _ => by simp only [toConst, extract]
  | .box, _ => by simp only [toConst, extract]
  | .bytes, _ => by simp only [toConst, extract]
  | .digest, d => by
    simp only [toConst, extract]
    rw [dif_pos d.2]
    rfl
  | .vec t, l => by
    simp only [toConst, extract]
    exact extractItems_map (extract t) (fun x => (toConst t x).v) l fun x _ => extract_toConst t x
  | .opt t, none => by simp only [toConst, extract]
  | .opt t, some x => by
    simp only [toConst, extract, extract_toConst t x]
    rfl
  | .tup ts, x => by
    simp only [toConst, extract]
    exact extracts_toConsts ts x
theorem extracts_toConsts : (ts : List RTy) → (x : Vals G B ts) → extracts ts ((toConsts ts x).map Constant.v) = some x
  | [], _ => by simp only [toConsts, List.map_nil, extracts]; rfl
  | t :: ts, x => by
    simp only [toConsts, List.map_cons, extracts, extract_toConst t x.1, extracts_toConsts ts x.2]
    rfl
end

mutual
theorem toConst_tpe : (t : RTy) → (x : t.Val G B) → (toConst t x).tpe = stype t
  | .unit, _ => by simp only [toConst, stype]
  | .bool, _ => by simp only [toConst, stype]
  | .i8, _ => by simp only [toConst, stype]
  | .i16, _ => by simp only [toConst, stype]
  | .i32, _ => by simp only [toConst, stype]
  | .i64, _ => by simp only [toConst, stype]
  | .bigInt, _ => by simp only [toConst, stype]
  | .point, _ => by simp only [toConst, stype]
  | .sigmaProp, _ => by simp only [toConst, stype]
  | .avlTree, _ => by simp only [toConst, stype]
  | .box, _ => by simp only [toConst, stype]
  | .bytes, _ => by simp only [toConst, stype]
  | .digest, _ => by simp only [toConst, stype]
  | .vec t, _ => by simp only [toConst]
  | .opt t, none => by simp only [toConst, stype]
  | .opt t, some _ => by simp only [toConst, stype]
  | .tup ts, x => by simp only [toConst, stype, toConsts_tpe ts x]
theorem toConsts_tpe : (ts : List RTy) → (x : Vals G B ts) → (toConsts ts x).map Constant.tpe = stypes ts
  | [], _ => by simp only [toConsts, stypes, List.map_nil]
  | t :: ts, x => by simp only [toConsts, stypes, List.map_cons, toConst_tpe t x.1, toConsts_tpe ts x.2]
end

theorem toConsts_length : (ts : List RTy) → (x : Vals G B ts) → (toConsts ts x).length = ts.length
  | [], _ => by simp only [toConsts, List.length_nil]
  | t :: ts, x => by simp only [toConsts, List.length_cons, toConsts_length ts x.2]

theorem stype_wrapped : (t : RTy) → wrapped t = true → stype t ≠ .byte
  | .unit, h | .i8, h | .avlTree, h | .box, h | .digest, h => by simp [wrapped] at h
  | .bool, _ | .i16, _ | .i32, _ | .i64, _ | .bigInt, _ | .point, _ | .sigmaProp, _ | .bytes, _ | .vec _, _ | .opt _, _
  | .tup _, _ => by simp [stype]

theorem allOf_map {bwf : B → Prop} {α : Type} (g : α → Literal G B) (e : SType) (l : List α)
    (h : ∀ x ∈ l, WellTyped bwf (g x) e) : AllOf bwf (l.map g) e := by
  induction l with
  | nil => simp only [List.map_nil, AllOf]
  | cons a l ih =>
    simp only [List.map_cons, AllOf]
    exact ⟨h a (by simp), ih fun x hx => h x (by simp [hx])⟩

mutual
theorem toConst_typed (bwf : B → Prop) : (t : RTy) → (x : t.Val G B) → conv t = true → Storable bwf t x →
    WellTyped bwf (toConst t x).v (stype t)
  | .unit, _, _, _ => by simp only [toConst, stype, WellTyped]
  | .bool, _, _, _ => by simp only [toConst, stype, WellTyped]
  | .i8, _, _, _ => by simp only [toConst, stype, WellTyped]
  | .i16, _, _, _ => by simp only [toConst, stype, WellTyped]
  | .i32, _, _, _ => by simp only [toConst, stype, WellTyped]
  | .i64, _, _, _ => by simp only [toConst, stype, WellTyped]
  | .bigInt, _, _, h => by
    simp only [toConst, stype, WellTyped]
    simpa only [Storable] using h
  | .point, _, _, _ => by simp only [toConst, stype, WellTyped]
  | .sigmaProp, _, _, h => by
    simp only [toConst, stype, WellTyped]
    simpa only [Storable] using h
  | .avlTree, _, _, h => by
    simp only [toConst, stype, WellTyped]
    simpa only [Storable] using h
  | .box, _, _, h => by
    simp only [toConst, stype, WellTyped]
    simpa only [Storable] using h
  | .bytes, _, _, h => by
    simp only [toConst, stype, WellTyped]
    exact ⟨trivial, by simpa only [Storable] using h⟩
  | .digest, d, _, _ => by
    simp only [toConst, stype, WellTyped]
    exact ⟨trivial, by rw [d.2]; decide⟩
  | .vec t, l, c, h => by
    simp only [conv, Bool.and_eq_true] at c
    simp only [Storable] at h
    simp only [toConst, stype, WellTyped]
    refine ⟨trivial, stype_wrapped t c.2.2, Nat.le_trans (Nat.le_of_eq (List.length_map (as := (l : List (t.Val G B))) _)) h.1, ?_⟩
    exact allOf_map (fun x => (toConst t x).v) _ l fun x hx => toConst_typed bwf t x c.1 (h.2 x hx)
  | .opt t, _, _, h => by simp only [Storable] at h
  | .tup ts, x, c, h => by
    simp only [conv, Bool.and_eq_true, decide_eq_true_eq] at c
    simp only [Storable] at h
    simp only [toConst, stype, WellTyped]
    have hl := toConsts_length ts x
    refine ⟨by rw [List.length_map, hl]; exact c.2.1, by rw [List.length_map, hl]; omega, toConsts_typed bwf ts x c.1 h⟩
theorem toConsts_typed (bwf : B → Prop) : (ts : List RTy) → (x : Vals G B ts) → convAll ts = true → StorableAll bwf ts x →
    Pointwise bwf ((toConsts ts x).map Constant.v) (stypes ts)
  | [], _, _, _ => by simp only [toConsts, stypes, List.map_nil, Pointwise]
  | t :: ts, x, c, h => by
    simp only [convAll, Bool.and_eq_true] at c
    simp only [StorableAll] at h
    simp only [toConsts, stypes, List.map_cons, Pointwise]
    exact ⟨toConst_typed bwf t x.1 c.1 h.1, toConsts_typed bwf ts x.2 c.2 h.2⟩
end

/-! ## Constants of the right type -/

mutual
theorem extract_typed (bwf : B → Prop) : (t : RTy) → (l : Literal G B) → conv t = true → NoDigest t → WellTyped bwf l (stype t) →
    ∃ x, extract t l = some x ∧ (toConst t x).v = l
  | .unit, l, _, _, h => by
    cases l <;> simp only [stype, WellTyped] at h
    exact ⟨(), by simp only [extract], by simp only [toConst]⟩
  | .bool, l, _, _, h => by
    cases l <;> simp only [stype, WellTyped] at h
    exact ⟨_, by simp only [extract]; rfl, by simp only [toConst]⟩
  | .i8, l, _, _, h => by
    cases l <;> simp only [stype, WellTyped] at h
    exact ⟨_, by simp only [extract]; rfl, by simp only [toConst]⟩
  | .i16, l, _, _, h => by
    cases l <;> simp only [stype, WellTyped] at h
    exact ⟨_, by simp only [extract]; rfl, by simp only [toConst]⟩
  | .i32, l, _, _, h => by
    cases l <;> simp only [stype, WellTyped] at h
    exact ⟨_, by simp only [extract]; rfl, by simp only [toConst]⟩
  | .i64, l, _, _, h => by
    cases l <;> simp only [stype, WellTyped] at h
    exact ⟨_, by simp only [extract]; rfl, by simp only [toConst]⟩
  | .bigInt, l, _, _, h => by
    cases l <;> simp only [stype, WellTyped] at h
    exact ⟨_, by simp only [extract]; rfl, by simp only [toConst]⟩
  | .point, l, _, _, h => by
    cases l <;> simp only [stype, WellTyped] at h
    exact ⟨_, by simp only [extract]; rfl, by simp only [toConst]⟩
  | .sigmaProp, l, _, _, h => by
    cases l <;> simp only [stype, WellTyped] at h
    exact ⟨_, by simp only [extract]; rfl, by simp only [toConst]⟩
  | .avlTree, l, _, _, h => by
    cases l <;> simp only [stype, WellTyped] at h
    exact ⟨_, by simp only [extract]; rfl, by simp only [toConst]⟩
  | .box, l, _, _, h => by
    cases l <;> simp only [stype, WellTyped] at h
    exact ⟨_, by simp only [extract]; rfl, by simp only [toConst]⟩
  | .bytes, l, _, _, h => by
    cases l <;> simp only [stype, WellTyped] at h
    · exact ⟨_, by simp only [extract]; rfl, by simp only [toConst]⟩
    · exact absurd h.1 h.2.1
  | .digest, _, _, d, _ => by simp only [NoDigest] at d
  | .vec t, l, c, d, h => by
    simp only [conv, Bool.and_eq_true] at c
    simp only [NoDigest] at d
    cases l <;> simp only [stype, WellTyped] at h
    · exact absurd h.1 (stype_wrapped t c.2.2)
    · rename_i e items
      obtain ⟨rfl, hb, hl, ha⟩ := h
      have hi : ∃ xs, extractItems (extract t) items = some xs ∧ xs.map (fun x => (toConst t x).v) = items := by
        have key : ∀ v : Literal G B, WellTyped bwf v (stype t) → ∃ x, extract t v = some x ∧ (toConst t x).v = v :=
          fun v hv => extract_typed bwf t v c.1 d hv
        clear hl
        induction items with
        | nil => exact ⟨[], rfl, rfl⟩
        | cons v items ih =>
          simp only [AllOf] at ha
          obtain ⟨x, e1, e2⟩ := key v ha.1
          obtain ⟨xs, e3, e4⟩ := ih ha.2
          refine ⟨x :: xs, ?_, ?_⟩
          · simp only [extractItems, e1, e3]; rfl
          · simp only [List.map_cons, e2, e4]
      obtain ⟨xs, e1, e2⟩ := hi
      exact ⟨xs, by simp only [extract, e1]; rfl, by simp only [toConst]; exact congrArg _ e2⟩
  | .opt t, l, _, _, h => by
    cases l <;> simp only [stype, WellTyped] at h
  | .tup ts, l, c, d, h => by
    simp only [conv, Bool.and_eq_true] at c
    simp only [NoDigest] at d
    cases l <;> simp only [stype, WellTyped] at h
    obtain ⟨x, e1, e2⟩ := extracts_typed bwf ts _ c.1 d h.2.2
    exact ⟨x, by simp only [extract, e1]; rfl, by simp only [toConst, e2]⟩
theorem extracts_typed (bwf : B → Prop) : (ts : List RTy) → (l : List (Literal G B)) → convAll ts = true → NoDigests ts →
    Pointwise bwf l (stypes ts) → ∃ x, extracts ts l = some x ∧ (toConsts ts x).map Constant.v = l
  | [], l, _, _, h => by
    cases l <;> simp only [stypes, Pointwise] at h
    exact ⟨(), by simp only [extracts], by simp only [toConsts, List.map_nil]⟩
  | t :: ts, l, c, d, h => by
    simp only [convAll, Bool.and_eq_true] at c
    simp only [NoDigests] at d
    cases l with
    | nil => simp only [stypes, Pointwise] at h
    | cons v l =>
      simp only [stypes, Pointwise] at h
      obtain ⟨x, e1, e2⟩ := extract_typed bwf t v c.1 d.1 h.1
      obtain ⟨xs, e3, e4⟩ := extracts_typed bwf ts l c.2 d.2 h.2
      refine ⟨(x, xs), ?_, ?_⟩
      · simp only [extracts, e1, e3]; rfl
      · simp only [toConsts, List.map_cons, e2, e4]
end

/-! ## Constants of other types -/

section
variable {bwf : B → Prop} {τ : SType}

theorem wt_unit (h : WellTyped bwf (.unit : Literal G B) τ) : τ = .unit := by
  cases τ <;> simp only [WellTyped] at h ⊢

theorem wt_bool {a} (h : WellTyped bwf (.bool a : Literal G B) τ) : τ = .bool := by
  cases τ <;> simp only [WellTyped] at h ⊢

theorem wt_byte {a} (h : WellTyped bwf (.byte a : Literal G B) τ) : τ = .byte := by
  cases τ <;> simp only [WellTyped] at h ⊢

theorem wt_short {a} (h : WellTyped bwf (.short a : Literal G B) τ) : τ = .short := by
  cases τ <;> simp only [WellTyped] at h ⊢

theorem wt_int {a} (h : WellTyped bwf (.int a : Literal G B) τ) : τ = .int := by
  cases τ <;> simp only [WellTyped] at h ⊢

theorem wt_long {a} (h : WellTyped bwf (.long a : Literal G B) τ) : τ = .long := by
  cases τ <;> simp only [WellTyped] at h ⊢

theorem wt_bigInt {a} (h : WellTyped bwf (.bigInt a : Literal G B) τ) : τ = .bigInt := by
  cases τ <;> simp only [WellTyped] at h ⊢

theorem wt_groupElement {a} (h : WellTyped bwf (.groupElement a : Literal G B) τ) : τ = .groupElement := by
  cases τ <;> simp only [WellTyped] at h ⊢

theorem wt_sigmaProp {a} (h : WellTyped bwf (.sigmaProp a : Literal G B) τ) : τ = .sigmaProp := by
  cases τ <;> simp only [WellTyped] at h ⊢

theorem wt_avlTree {a} (h : WellTyped bwf (.avlTree a : Literal G B) τ) : τ = .avlTree := by
  cases τ <;> simp only [WellTyped] at h ⊢

theorem wt_box {a} (h : WellTyped bwf (.box a : Literal G B) τ) : τ = .box := by
  cases τ <;> simp only [WellTyped] at h ⊢

theorem wt_collByte {a} (h : WellTyped bwf (.collByte a : Literal G B) τ) : τ = .coll .byte := by
  cases τ <;> simp only [WellTyped] at h
  rw [h.1]

theorem wt_coll {e items} (h : WellTyped bwf (.coll e items : Literal G B) τ) : τ = .coll e ∧ e ≠ .byte ∧ AllOf bwf items e := by
  cases τ <;> simp only [WellTyped] at h
  exact ⟨by rw [h.1], h.2.1, h.2.2.2⟩

theorem wt_tup {items} (h : WellTyped bwf (.tup items : Literal G B) τ) : ∃ ts, τ = .tuple ts ∧ Pointwise bwf items ts := by
  cases τ <;> simp only [WellTyped] at h
  exact ⟨_, rfl, h.2.2⟩

theorem wt_none (h : WellTyped bwf (.none : Literal G B) τ) : False := by
  cases τ <;> simp only [WellTyped] at h

theorem wt_some {v} (h : WellTyped bwf (.some v : Literal G B) τ) : False := by
  cases τ <;> simp only [WellTyped] at h

end

theorem covers_coll_byte (e : SType) (h : e ≠ .byte) : ¬ TypeCovers e .byte := by
  cases e <;> simp only [TypeCovers] <;> first | exact absurd rfl h | exact fun k => absurd k (by simp)

theorem covers_byte (e : SType) (h : e ≠ .byte) : ¬ TypeCovers .byte e := by
  cases e <;> simp only [TypeCovers] <;> first | exact absurd rfl h | exact fun k => absurd k (by simp)

/-- Closes the case of a type without parts. -/
local macro "base_case" l:ident h:ident : tactic => `(tactic| (
  cases $l:ident <;> first
    | exact (wt_none $h).elim
    | exact (wt_some $h).elim
    | (obtain ⟨he, hne, _⟩ := wt_coll $h; subst he; simp [extract, stype, TypeCovers, covers_coll_byte _ hne])
    | (obtain ⟨_, he, _⟩ := wt_tup $h; subst he; simp [extract, stype, TypeCovers])
    | ((have he := wt_collByte $h; subst he); first | (simp [extract, stype, TypeCovers]; done) | (simp [extract, stype, TypeCovers]; rfl))
    | (first
        | (have he := wt_unit $h; subst he) | (have he := wt_bool $h; subst he) | (have he := wt_byte $h; subst he) | (have he := wt_short $h; subst he)
        | (have he := wt_int $h; subst he) | (have he := wt_long $h; subst he) | (have he := wt_bigInt $h; subst he) | (have he := wt_groupElement $h; subst he)
        | (have he := wt_sigmaProp $h; subst he) | (have he := wt_avlTree $h; subst he) | (have he := wt_box $h; subst he)
       first | (simp [extract, stype, TypeCovers]; done) | (simp [extract, stype, TypeCovers]; rfl))))

theorem iff_unit (bwf : B → Prop) (l : Literal G B) (τ : SType) (h : WellTyped bwf l τ) :
    (extract .unit l).isSome = true ↔ TypeCovers τ (stype .unit) := by
  base_case l h

theorem iff_bool (bwf : B → Prop) (l : Literal G B) (τ : SType) (h : WellTyped bwf l τ) :
    (extract .bool l).isSome = true ↔ TypeCovers τ (stype .bool) := by
  base_case l h

theorem iff_i8 (bwf : B → Prop) (l : Literal G B) (τ : SType) (h : WellTyped bwf l τ) :
    (extract .i8 l).isSome = true ↔ TypeCovers τ (stype .i8) := by
  base_case l h

theorem iff_i16 (bwf : B → Prop) (l : Literal G B) (τ : SType) (h : WellTyped bwf l τ) :
    (extract .i16 l).isSome = true ↔ TypeCovers τ (stype .i16) := by
  base_case l h

theorem iff_i32 (bwf : B → Prop) (l : Literal G B) (τ : SType) (h : WellTyped bwf l τ) :
    (extract .i32 l).isSome = true ↔ TypeCovers τ (stype .i32) := by
  base_case l h

theorem iff_i64 (bwf : B → Prop) (l : Literal G B) (τ : SType) (h : WellTyped bwf l τ) :
    (extract .i64 l).isSome = true ↔ TypeCovers τ (stype .i64) := by
  base_case l h

theorem iff_bigInt (bwf : B → Prop) (l : Literal G B) (τ : SType) (h : WellTyped bwf l τ) :
    (extract .bigInt l).isSome = true ↔ TypeCovers τ (stype .bigInt) := by
  base_case l h

theorem iff_point (bwf : B → Prop) (l : Literal G B) (τ : SType) (h : WellTyped bwf l τ) :
    (extract .point l).isSome = true ↔ TypeCovers τ (stype .point) := by
  base_case l h

theorem iff_sigmaProp (bwf : B → Prop) (l : Literal G B) (τ : SType) (h : WellTyped bwf l τ) :
    (extract .sigmaProp l).isSome = true ↔ TypeCovers τ (stype .sigmaProp) := by
  base_case l h

theorem iff_avlTree (bwf : B → Prop) (l : Literal G B) (τ : SType) (h : WellTyped bwf l τ) :
    (extract .avlTree l).isSome = true ↔ TypeCovers τ (stype .avlTree) := by
  base_case l h

theorem iff_box (bwf : B → Prop) (l : Literal G B) (τ : SType) (h : WellTyped bwf l τ) :
    (extract .box l).isSome = true ↔ TypeCovers τ (stype .box) := by
  base_case l h

theorem iff_bytes (bwf : B → Prop) (l : Literal G B) (τ : SType) (h : WellTyped bwf l τ) :
    (extract .bytes l).isSome = true ↔ TypeCovers τ (stype .bytes) := by
  base_case l h

theorem iff_opt (bwf : B → Prop) (t : RTy) (l : Literal G B) (τ : SType) (h : WellTyped bwf l τ) :
    (extract (.opt t) l).isSome = true ↔ TypeCovers τ (stype (.opt t)) := by
  base_case l h

mutual
theorem extract_iff (bwf : B → Prop) : (t : RTy) → (l : Literal G B) → (τ : SType) → conv t = true → NoDigest t → WellTyped bwf l τ →
    Full l → ((extract t l).isSome = true ↔ TypeCovers τ (stype t))
  | .unit, l, τ, _, _, h, _ => iff_unit bwf l τ h
  | .bool, l, τ, _, _, h, _ => iff_bool bwf l τ h
  | .i8, l, τ, _, _, h, _ => iff_i8 bwf l τ h
  | .i16, l, τ, _, _, h, _ => iff_i16 bwf l τ h
  | .i32, l, τ, _, _, h, _ => iff_i32 bwf l τ h
  | .i64, l, τ, _, _, h, _ => iff_i64 bwf l τ h
  | .bigInt, l, τ, _, _, h, _ => iff_bigInt bwf l τ h
  | .point, l, τ, _, _, h, _ => iff_point bwf l τ h
  | .sigmaProp, l, τ, _, _, h, _ => iff_sigmaProp bwf l τ h
  | .avlTree, l, τ, _, _, h, _ => iff_avlTree bwf l τ h
  | .box, l, τ, _, _, h, _ => iff_box bwf l τ h
  | .bytes, l, τ, _, _, h, _ => iff_bytes bwf l τ h
  | .digest, _, _, _, d, _, _ => by simp only [NoDigest] at d
  | .vec t, l, τ, c, d, h, f => by
    simp only [conv, Bool.and_eq_true] at c
    simp only [NoDigest] at d
    cases l
    case coll e items =>
      obtain ⟨rfl, hne, ha⟩ := wt_coll h
      simp only [Full] at f
      simp only [stype, TypeCovers]
      have key := fun v hv hf => extract_iff bwf t v e c.1 d hv hf
      show (extractItems (extract t) items).isSome = true ↔ _
      have all : ∀ l : List (Literal G B), AllOf bwf l e → FullAll l → l ≠ [] →
          ((extractItems (extract t) l).isSome = true ↔ TypeCovers e (stype t)) := by
        intro l
        induction l with
        | nil => intro _ _ h; exact absurd rfl h
        | cons v l ih =>
          intro ha hf _
          simp only [AllOf] at ha
          simp only [FullAll] at hf
          have k := key v ha.1 hf.1
          cases hv : extract t v with
          | none =>
            rw [hv] at k
            simp only [extractItems, hv]
            simpa using k
          | some x =>
            rw [hv] at k
            have hc := k.1 rfl
            refine ⟨fun _ => hc, fun _ => ?_⟩
            cases l with
            | nil => simp [extractItems, hv]
            | cons w l =>
              have := (ih ha.2 hf.2 (by simp)).2 hc
              obtain ⟨xs, hxs⟩ := Option.isSome_iff_exists.1 this
              rw [extractItems, hv, hxs]
              rfl
      exact all items ha f.2 f.1
    all_goals first
      | exact (wt_none h).elim
      | exact (wt_some h).elim
      | (obtain ⟨_, rfl, _⟩ := wt_tup h; simp [extract, stype, TypeCovers])
      | (obtain rfl := wt_collByte h; simp [extract, stype, TypeCovers, covers_byte _ (stype_wrapped t c.2.2), Ne.symm (stype_wrapped t c.2.2)])
      | (first
          | obtain rfl := wt_unit h | obtain rfl := wt_bool h | obtain rfl := wt_byte h | obtain rfl := wt_short h
          | obtain rfl := wt_int h | obtain rfl := wt_long h | obtain rfl := wt_bigInt h | obtain rfl := wt_groupElement h
          | obtain rfl := wt_sigmaProp h | obtain rfl := wt_avlTree h | obtain rfl := wt_box h
         simp [extract, stype, TypeCovers])
  | .opt t, l, τ, _, _, h, _ => iff_opt bwf t l τ h
  | .tup ts, l, τ, c, d, h, f => by
    simp only [conv, Bool.and_eq_true] at c
    simp only [NoDigest] at d
    cases l
    case tup items =>
      obtain ⟨τs, rfl, hp⟩ := wt_tup h
      simp only [Full] at f
      simp only [stype, TypeCovers]
      exact extracts_iff bwf ts items τs c.1 d hp f
    all_goals first
      | exact (wt_none h).elim
      | exact (wt_some h).elim
      | (obtain ⟨rfl, _, _⟩ := wt_coll h; simp [extract, stype, TypeCovers])
      | (obtain rfl := wt_collByte h; simp [extract, stype, TypeCovers])
      | (first
          | obtain rfl := wt_unit h | obtain rfl := wt_bool h | obtain rfl := wt_byte h | obtain rfl := wt_short h
          | obtain rfl := wt_int h | obtain rfl := wt_long h | obtain rfl := wt_bigInt h | obtain rfl := wt_groupElement h
          | obtain rfl := wt_sigmaProp h | obtain rfl := wt_avlTree h | obtain rfl := wt_box h
         simp [extract, stype, TypeCovers])
theorem extracts_iff (bwf : B → Prop) : (ts : List RTy) → (l : List (Literal G B)) → (τs : List SType) → convAll ts = true →
    NoDigests ts → Pointwise bwf l τs → FullAll l → ((extracts ts l).isSome = true ↔ TypesCover τs (stypes ts))
  | [], l, τs, _, _, _, _ => by simp only [extracts, stypes, TypesCover]; simp; rfl
  | t :: ts, l, τs, c, d, h, f => by
    simp only [convAll, Bool.and_eq_true] at c
    simp only [NoDigests] at d
    cases l with
    | nil =>
      cases τs with
      | nil => simp only [extracts, stypes, TypesCover]; simp
      | cons τ τs => simp only [Pointwise] at h
    | cons v l =>
      cases τs with
      | nil => simp only [Pointwise] at h
      | cons τ τs =>
        simp only [Pointwise] at h
        simp only [FullAll] at f
        have k := extract_iff bwf t v τ c.1 d.1 h.1 f.1
        have ks := extracts_iff bwf ts l τs c.2 d.2 h.2 f.2
        simp only [extracts, stypes, TypesCover]
        rw [← k, ← ks]
        cases extract t v <;> cases extracts ts l <;> simp <;> rfl
end

theorem stypes_length : (ts : List RTy) → (stypes ts).length = ts.length
  | [] => by simp only [stypes, List.length_nil]
  | t :: ts => by simp only [stypes, List.length_cons, stypes_length ts]

mutual
theorem stype_wf (utf8 : Bytes → Bool) : (t : RTy) → conv t = true → WfType utf8 (stype t) ∧ NoFunc (stype t)
  | .unit, _ => by simp only [stype, WfType, NoFunc, and_self]
  | .bool, _ => by simp only [stype, WfType, NoFunc, and_self]
  | .i8, _ => by simp only [stype, WfType, NoFunc, and_self]
  | .i16, _ => by simp only [stype, WfType, NoFunc, and_self]
  | .i32, _ => by simp only [stype, WfType, NoFunc, and_self]
  | .i64, _ => by simp only [stype, WfType, NoFunc, and_self]
  | .bigInt, _ => by simp only [stype, WfType, NoFunc, and_self]
  | .point, _ => by simp only [stype, WfType, NoFunc, and_self]
  | .sigmaProp, _ => by simp only [stype, WfType, NoFunc, and_self]
  | .avlTree, _ => by simp only [stype, WfType, NoFunc, and_self]
  | .box, _ => by simp only [stype, WfType, NoFunc, and_self]
  | .bytes, _ => by simp only [stype, WfType, NoFunc, and_self]
  | .digest, _ => by simp only [stype, WfType, NoFunc, and_self]
  | .vec t, c => by
    simp only [conv, Bool.and_eq_true] at c
    simp only [stype, WfType, NoFunc]
    exact stype_wf utf8 t c.1
  | .opt t, c => by
    simp only [conv, Bool.and_eq_true] at c
    simp only [stype, WfType, NoFunc]
    exact stype_wf utf8 t c.1
  | .tup ts, c => by
    simp only [conv, Bool.and_eq_true, decide_eq_true_eq] at c
    simp only [stype, WfType, NoFunc, stypes_length]
    exact ⟨⟨c.2.1, by omega, (stypes_wf utf8 ts c.1).1⟩, (stypes_wf utf8 ts c.1).2⟩
theorem stypes_wf (utf8 : Bytes → Bool) : (ts : List RTy) → convAll ts = true → WfTypes utf8 (stypes ts) ∧ NoFuncs (stypes ts)
  | [], _ => by simp only [stypes, WfTypes, NoFuncs, and_self]
  | t :: ts, c => by
    simp only [convAll, Bool.and_eq_true] at c
    simp only [stypes, WfTypes, NoFuncs]
    exact ⟨⟨(stype_wf utf8 t c.1).1, (stypes_wf utf8 ts c.2).1⟩, (stype_wf utf8 t c.1).2, (stypes_wf utf8 ts c.2).2⟩
end

end Verif.RTy
