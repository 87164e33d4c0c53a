import Verif.Proofs.ExprRt
import Verif.Proofs.Transaction

set_option linter.unusedVariables false
set_option linter.unusedSimpArgs false

/-! Every expression that is read satisfies the invariant under which it is written and read back. -/

namespace Verif
open Spec Expr
variable {G B T : Type}

/-- What holds of an expression read in the state `st`. -/
def ReadOk (utf8 : Bytes → Bool) (bwf : B → Prop) (R : Reader G B) (st : TStore) (x : Expr G B × TStore) : Prop :=
  Good utf8 bwf R x.1 st ∧ x.2 = after x.1 st

/-- What holds of expressions read one after the other in the state `st`. -/
def ReadAllOk (utf8 : Bytes → Bool) (bwf : B → Prop) (R : Reader G B) (st : TStore) (x : List (Expr G B) × TStore) : Prop :=
  GoodAll utf8 bwf R x.1 st ∧ x.2 = afterAll x.1 st

theorem post_parseN {utf8 : Bytes → Bool} {bwf : B → Prop} {R : Reader G B} {q : EP G B}
    (h : ∀ st, Post (ReadOk utf8 bwf R st) (q st)) : ∀ n st,
    Post (fun x => x.1.length = n ∧ ReadAllOk utf8 bwf R st x) (parseN q n st)
  | 0, st => Post.pure ⟨rfl, trivial, rfl⟩
  | n + 1, st => by
    refine Post.bind (h st) (fun a ha => Post.bind (post_parseN h n a.2) (fun l hl => Post.pure ?_))
    obtain ⟨h1, h2, h3⟩ := hl
    rw [ha.2] at h2 h3
    exact ⟨by simp [h1], ⟨ha.1, h2⟩, h3⟩

theorem post_parseOpt {utf8 : Bytes → Bool} {bwf : B → Prop} {R : Reader G B} {q : EP G B}
    (h : ∀ st, Post (ReadOk utf8 bwf R st) (q st)) (st : TStore) :
    Post (fun x => x.1.length ≤ 1 ∧ ReadAllOk utf8 bwf R st x) (parseOpt q st) := by
  refine Post.bind Post.top (fun t _ => Post.ite (fun _ => ?_) (fun _ => Post.pure ⟨by simp, trivial, rfl⟩))
  exact Post.bind (h st) (fun a ha => Post.pure ⟨by simp, ⟨ha.1, trivial⟩, ha.2⟩)

theorem post_parseArg (utf8 : Bytes → Bool) : Post (fun a => GoodType utf8 a.2) (parseArg utf8) :=
  Post.bind Post.top (fun i _ => Post.bind (SType.parsed_good utf8) (fun t ht => Post.pure ht))

/-- `R` reads, `R'` says which placeholders may be left: none if `R` substitutes them. -/
theorem post_kind (E : Sers G B T) {bwf : B → Prop} (hb : BoxParsed E.bc bwf) (R R' : Reader G B)
    (hc : R.subst = true → ∀ c ∈ R.consts, GoodConst E.utf8 bwf c) (hm : R'.methods = R.methods)
    (hk : R.subst = false → R'.consts = R.consts)
    {p : TStore × Byte → Parser (Expr G B × TStore)} {q : EP G B}
    (hp : ∀ i, Post (fun x => ReadOk E.utf8 bwf R' i.1 x ∧ (isBools x.1 = true → i.2 = Kind.bools.code)) (p i))
    (hq : ∀ st, Post (ReadOk E.utf8 bwf R' st) (q st)) (st : TStore) (k : Kind) :
    Post (fun x => ReadOk E.utf8 bwf R' st x ∧ (isBools x.1 = true → k = .bools)) (parseKind E R p q st k) := by
  have hn := post_parseN hq
  have ho := post_parseOpt hq
  have ht := SType.parsed_good E.utf8
  cases k with
  | simple o =>
    refine Post.bind (hn _ _) (fun a ha => Post.ite (fun hck => Post.pure ⟨⟨?_, ?_⟩, by simp [isBools]⟩) (fun _ => Post.fail))
    · rw [Good]; exact ⟨ha.1, hck, ha.2.1⟩
    · rw [after]; exact ha.2.2
  | bin k =>
    refine Post.bind Post.top (fun tag _ => Post.ite (fun _ => ?_) (fun htag => ?_))
    · refine Post.bind Post.top (fun bs _ => Post.pure ⟨⟨?_, ?_⟩, by simp [isBools]⟩)
      · simp [Good, boolExpr, isBools, GoodConst, WfType, NoFunc, WellTyped]
      · simp [after, boolExpr]
    · refine Post.bind (hp _) (fun l hl => Post.bind (hq _) (fun r hr => Post.pure ⟨⟨?_, ?_⟩, by simp [isBools]⟩))
      · rw [Good]
        obtain ⟨hl, hl'⟩ := hl
        refine ⟨?_, hl.1, ?_⟩
        · cases hbl : isBools l.1 with
          | false => rfl
          | true => exact absurd (hl' hbl) htag
        · have := hr.1
          rwa [hl.2] at this
      · rw [after, ← hl.1.2]; exact hr.2
  | placeholder =>
    refine Post.bind Post.top (fun id _ => ?_)
    split
    · rename_i c hcc
      refine Post.ite (fun hs => Post.pure ⟨⟨?_, rfl⟩, by simp [isBools]⟩) (fun hs => Post.pure ⟨⟨?_, rfl⟩, by simp [isBools]⟩)
      · rw [Good]; exact hc hs c (List.mem_of_getElem? hcc)
      · rw [Good]; exact ⟨c, by rw [hk (by simpa using hs)]; exact hcc, rfl⟩
    · exact Post.fail
  | valUse =>
    refine Post.bind Post.top (fun id _ => ?_)
    split
    · rename_i t htt
      exact Post.pure ⟨⟨by rw [Good]; exact htt, rfl⟩, by simp [isBools]⟩
    · exact Post.fail
  | bools =>
    refine Post.bind Literal.post_getU16 (fun n hn => Post.bind (Literal.post_getBits _) (fun l hl => Post.pure ⟨⟨?_, rfl⟩, fun _ => rfl⟩))
    rw [Good]; omega
  | cast u =>
    refine Post.bind (hq _) (fun e he => Post.bind ht (fun t ht => Post.pure ⟨⟨?_, ?_⟩, by simp [isBools]⟩))
    · rw [Good]; exact ⟨ht, he.1⟩
    · rw [after]; exact he.2
  | extractReg =>
    refine Post.bind (hq _) (fun e he => Post.bind Post.top (fun r _ => Post.bind ht (fun t ht =>
      Post.ite (fun hck => Post.pure ⟨⟨?_, ?_⟩, by simp [isBools]⟩) (fun _ => Post.fail))))
    · rw [Good]; exact ⟨ht, hck, he.1⟩
    · rw [after]; exact he.2
  | selectField =>
    refine Post.bind (hq _) (fun e he => Post.bind Post.top (fun r _ =>
      Post.ite (fun hck => Post.pure ⟨⟨?_, ?_⟩, by simp [isBools]⟩) (fun _ => Post.fail)))
    · rw [Good]; exact ⟨hck, he.1⟩
    · rw [after]; exact he.2
  | getVar =>
    refine Post.bind Post.top (fun x _ => Post.bind ht (fun t ht => Post.pure ⟨⟨?_, rfl⟩, by simp [isBools]⟩))
    rw [Good]; exact ht
  | deserCtx =>
    refine Post.bind ht (fun t ht => Post.bind Post.top (fun x _ => Post.pure ⟨⟨?_, rfl⟩, by simp [isBools]⟩))
    rw [Good]; exact ht
  | deserReg =>
    refine Post.bind Post.top (fun x _ => Post.bind ht (fun t ht => Post.bind (ho _) (fun d hd =>
      Post.pure ⟨⟨?_, ?_⟩, by simp [isBools]⟩)))
    · rw [Good]; exact ⟨ht, hd.1, hd.2.1⟩
    · rw [after]; exact hd.2.2
  | byIndex =>
    refine Post.bind (hq _) (fun e he => Post.bind (hq _) (fun x hx => Post.bind (ho _) (fun d hd =>
      Post.ite (fun hck => Post.pure ⟨⟨?_, ?_⟩, by simp [isBools]⟩) (fun _ => Post.fail))))
    · obtain ⟨g1, g2⟩ := he
      obtain ⟨g3, g4⟩ := hx
      obtain ⟨g5, g6, g7⟩ := hd
      rw [g4, g2] at g6
      rw [g2] at g3
      rw [Good]; exact ⟨hck, g5, g1, g3, g6⟩
    · rw [after, ← he.2, ← hx.2]; exact hd.2.2
  | createAvl =>
    refine Post.bind (hq _) (fun e he => Post.bind (hq _) (fun x hx => Post.bind (hq _) (fun y hy =>
      Post.bind (ho _) (fun d hd =>
      Post.ite (fun hck => Post.pure ⟨⟨?_, ?_⟩, by simp [isBools]⟩) (fun _ => Post.fail)))))
    · obtain ⟨g1, g2⟩ := he
      obtain ⟨g3, g4⟩ := hx
      obtain ⟨g3', g4'⟩ := hy
      obtain ⟨g5, g6, g7⟩ := hd
      rw [g4', g4, g2] at g6
      rw [g4, g2] at g3'
      rw [g2] at g3
      rw [Good]; exact ⟨hck, g5, g1, g3, g3', g6⟩
    · rw [after, ← he.2, ← hx.2, ← hy.2]; exact hd.2.2
  | coll =>
    refine Post.bind Literal.post_getU16 (fun n hn16 => Post.bind ht (fun t ht => Post.bind (hn _ _) (fun a ha =>
      Post.pure ⟨⟨?_, ?_⟩, by simp [isBools]⟩)))
    · rw [Good]; exact ⟨ht, by have := ha.1; omega, ha.2.1⟩
    · rw [after]; exact ha.2.2
  | tuple =>
    refine Post.bind Post.top (fun n _ => Post.bind (hn _ _) (fun a ha =>
      Post.ite (fun hck => Post.pure ⟨⟨?_, ?_⟩, by simp [isBools]⟩) (fun _ => Post.fail)))
    · rw [Good]; exact ⟨hck.1, hck.2, ha.2.1⟩
    · rw [after]; exact ha.2.2
  | sigma u =>
    refine Post.bind Post.top (fun n _ => Post.bind (hn _ _) (fun a ha =>
      Post.ite (fun hck => Post.pure ⟨⟨?_, ?_⟩, by simp [isBools]⟩) (fun _ => Post.fail)))
    · rw [Good]; exact ⟨hck.1, hck.2.1, hck.2.2, ha.2.1⟩
    · rw [after]; exact ha.2.2
  | func =>
    refine Post.bind Post.top (fun n _ => Post.bind (Post.replicateP (post_parseArg E.utf8) _) (fun args hargs =>
      Post.bind (hq _) (fun b hbd => Post.pure ⟨⟨?_, ?_⟩, by simp [isBools]⟩)))
    · rw [Good]; exact ⟨by have := n.isLt; have := hargs.1; omega, hargs.2, hbd.1⟩
    · rw [after]; exact hbd.2
  | apply =>
    refine Post.bind (hq _) (fun f hf => Post.bind Post.top (fun n _ => Post.bind (hn _ _) (fun a ha =>
      Post.ite (fun hck => Post.pure ⟨⟨?_, ?_⟩, by simp [isBools]⟩) (fun _ => Post.fail))))
    · obtain ⟨g1, g2, g3⟩ := ha
      rw [hf.2] at g2
      rw [Good]; exact ⟨hck, by have := n.isLt; omega, hf.1, g2⟩
    · rw [after, ← hf.2]; exact ha.2.2
  | block =>
    refine Post.bind Post.top (fun n _ => Post.bind (hn _ _) (fun a ha => Post.bind (hq _) (fun r hr =>
      Post.pure ⟨⟨?_, ?_⟩, by simp [isBools]⟩)))
    · obtain ⟨g1, g2, g3⟩ := ha
      have := hr.1
      rw [g3] at this
      rw [Good]; exact ⟨by have := n.isLt; omega, g2, this⟩
    · rw [after, ← ha.2.2]; exact hr.2
  | valDef =>
    refine Post.bind Post.top (fun id _ => Post.bind (hq _) (fun r hr => Post.pure ⟨⟨?_, ?_⟩, by simp [isBools]⟩))
    · rw [Good]; exact hr.1
    · rw [after, ← hr.2]
  | method =>
    refine Post.bind Post.top (fun ti _ => Post.bind Post.top (fun mi _ => Post.bind (hq _) (fun obj hobj =>
      Post.bind Post.top (fun n _ => Post.bind (hn _ _) (fun a ha => ?_)))))
    split
    · rename_i sig hsig
      refine Post.pure ⟨⟨?_, ?_⟩, by simp [isBools]⟩
      · obtain ⟨g1, g2, g3⟩ := ha
        rw [hobj.2] at g2
        rw [Good, hm]; exact ⟨hsig, by have := n.isLt; omega, hobj.1, g2⟩
      · rw [after, ← hobj.2]; exact ha.2.2
    · exact Post.fail
  | property =>
    refine Post.bind Post.top (fun ti _ => Post.bind Post.top (fun mi _ => Post.bind (hq _) (fun obj hobj => ?_)))
    split
    · rename_i sig hsig
      refine Post.pure ⟨⟨?_, ?_⟩, by simp [isBools]⟩
      · rw [Good, hm]; exact ⟨hsig, hobj.1⟩
      · rw [after]; exact hobj.2
    · exact Post.fail

theorem post_parseFuel [DecidableEq G] (E : Sers G B T) {bwf : B → Prop} (hb : BoxParsed E.bc bwf) (R R' : Reader G B)
    (hc : R.subst = true → ∀ c ∈ R.consts, GoodConst E.utf8 bwf c) (hm : R'.methods = R.methods)
    (hks : R.subst = false → R'.consts = R.consts) (n : Nat) :
    ∀ i, Post (fun x => ReadOk E.utf8 bwf R' i.1 x ∧ (isBools x.1 = true → i.2 = Kind.bools.code)) (parseFuel E R n i) := by
  induction n with
  | zero => exact fun i => Post.fail
  | succ n ih =>
    intro i
    have hq : ∀ st, Post (ReadOk E.utf8 bwf R' st) (withTag (parseFuel E R n) st) := fun st =>
      Post.bind Post.top (fun t _ => Post.mono (ih (st, t)) (fun x hx => hx.1))
    rw [parseFuel]
    unfold parseTag
    refine Post.ite (fun _ => ?_) (fun _ => ?_)
    · refine Post.bind (Q := GoodConst E.utf8 bwf) ?_ (fun c hcc => Post.pure ⟨⟨by rw [Good]; exact hcc, rfl⟩, by simp [isBools]⟩)
      unfold Constant.parseCode
      refine Post.bind (SType.post_parseCode E.utf8 (SType.parsed_good E.utf8) _) (fun t ht => ?_)
      exact Post.bind (Literal.parsed E.pc E.bc bwf hb t) (fun v hv => Post.pure ⟨ht.1, ht.2, hv⟩)
    · split
      · exact Post.fail
      · rename_i k hk
        refine Post.mono (post_kind E hb R R' hc hm hks ih hq i.1 k) (fun x hx => ⟨hx.1, fun hbl => ?_⟩)
        have := hx.2 hbl
        subst this
        exact (Kind.code_of_ofCode hk).symm

theorem parsed_good_expr [DecidableEq G] (E : Sers G B T) {bwf : B → Prop} (hb : BoxParsed E.bc bwf) (R : Reader G B)
    (hc : R.subst = true → ∀ c ∈ R.consts, GoodConst E.utf8 bwf c) (st : TStore) :
    Post (ReadOk E.utf8 bwf R st) (Expr.parse E R st) :=
  Post.bind Post.top (fun t _ s a r e => (post_parseFuel E hb R R hc rfl (fun _ => rfl) _ (st, t) s a r e).1)

/-- A reader that substitutes placeholders leaves none. -/
theorem parsed_good_subst [DecidableEq G] (E : Sers G B T) {bwf : B → Prop} (hb : BoxParsed E.bc bwf) (R : Reader G B)
    (hs : R.subst = true) (hc : ∀ c ∈ R.consts, GoodConst E.utf8 bwf c) (st : TStore) :
    Post (ReadOk E.utf8 bwf { R with consts := [] } st) (Expr.parse E R st) :=
  Post.bind Post.top (fun t _ s a r e => (post_parseFuel E hb R { R with consts := [] } (fun _ => hc) rfl (by simp [hs]) _ (st, t) s a r e).1)

end Verif
