import Verif.Proofs.ExprSeg
import Verif.Proofs.FMap
import Verif.Spec.ErgoTree

set_option linter.unusedVariables false
set_option linter.unusedSimpArgs false

/-! Codec of ErgoTrees, constant segregation and substitution. -/

namespace Verif
open Spec Expr
variable {G B T : Type}

/-! ## Larger tables of variables -/

/-- `st'` knows everything `st` knows. -/
def ExtS (st st' : TStore) : Prop := ∀ id t, FMap.get st id = some t → FMap.get st' id = some t

theorem ExtS.insert {st st' : TStore} (h : ExtS st st') (id : BitVec 32) (t : SType) :
    ExtS (FMap.insert st id t) (FMap.insert st' id t) := by
  intro i u hu
  rw [FMap.get_insert] at hu ⊢
  split
  · rename_i he; rw [if_pos he] at hu; exact hu
  · rename_i he; rw [if_neg he] at hu; exact h i u hu

theorem ExtS.insertArgs : ∀ (l : List (BitVec 32 × SType)) {st st' : TStore}, ExtS st st' →
    ExtS (insertArgs st l) (insertArgs st' l)
  | [], _, _, h => h
  | a :: l, _, _, h => ExtS.insertArgs l (h.insert a.1 a.2)

theorem ExtS.after (e : Expr G B) : ∀ {st st' : TStore}, ExtS st st' → ExtS (after e st) (after e st') := by
  refine Expr.rec (motive_1 := fun e => ∀ {st st' : TStore}, ExtS st st' → ExtS (Spec.after e st) (Spec.after e st'))
    (motive_2 := fun l => ∀ {st st' : TStore}, ExtS st st' → ExtS (afterAll l st) (afterAll l st'))
    ?_ ?_ ?_ ?_ ?_ ?_ ?_ ?_ ?_ ?_ ?_ ?_ ?_ ?_ ?_ ?_ ?_ ?_ ?_ ?_ ?_ ?_ ?_ ?_ ?_ e
  case refine_18 =>
    intro args body ih st st' h
    rw [Spec.after, Spec.after]
    exact ih (ExtS.insertArgs args h)
  case refine_21 =>
    intro id rhs ih st st' h
    rw [Spec.after, Spec.after]
    exact (ih h).insert _ _
  all_goals intros
  all_goals rename_i h
  all_goals simp only [Spec.after, afterAll]
  all_goals solve_by_elim (maxDepth := 12)

theorem good_mono {utf8 : Bytes → Bool} {bwf : B → Prop} {R : Reader G B} (e : Expr G B) :
    ∀ {st st' : TStore}, ExtS st st' → Good utf8 bwf R e st → Good utf8 bwf R e st' := by
  suffices hs : ∀ st st' : TStore, ExtS st st' → Good utf8 bwf R e st → Good utf8 bwf R e st' from
    fun {st st'} => hs st st'
  have hA : ∀ (l : List (Expr G B)) {st st' : TStore}, ExtS st st' → ExtS (afterAll l st) (afterAll l st') := by
    intro l
    induction l with
    | nil => exact fun h => h
    | cons e l ih => intro st st' h; rw [afterAll, afterAll]; exact ih (ExtS.after e h)
  refine Expr.rec
    (motive_1 := fun e => ∀ st st' : TStore, ExtS st st' → Good utf8 bwf R e st → Good utf8 bwf R e st')
    (motive_2 := fun l => ∀ st st' : TStore, ExtS st st' → GoodAll utf8 bwf R l st → GoodAll utf8 bwf R l st')
    ?_ ?_ ?_ ?_ ?_ ?_ ?_ ?_ ?_ ?_ ?_ ?_ ?_ ?_ ?_ ?_ ?_ ?_ ?_ ?_ ?_ ?_ ?_ ?_ ?_ e
  case refine_24 => exact fun _ _ _ _ => trivial
  case refine_25 =>
    intro e l ihe ihl st st' h hg
    rw [GoodAll] at hg ⊢
    exact ⟨ihe _ _ h hg.1, ihl _ _ (ExtS.after e h) hg.2⟩
  all_goals intros
  all_goals rename_i h hg
  all_goals rw [Good] at hg ⊢
  case refine_1 => exact hg
  case refine_2 => exact hg
  case refine_3 => exact h _ _ hg
  case refine_4 => exact hg
  case refine_5 ih _ _ => exact ⟨hg.1, hg.2.1, ih _ _ h hg.2.2⟩
  case refine_6 ihl ihr _ _ => exact ⟨hg.1, ihl _ _ h hg.2.1, ihr _ _ (ExtS.after _ h) hg.2.2⟩
  case refine_7 ih _ _ => exact ⟨hg.1, ih _ _ h hg.2⟩
  case refine_8 ih _ _ => exact ⟨hg.1, hg.2.1, ih _ _ h hg.2.2⟩
  case refine_9 ih _ _ => exact ⟨hg.1, ih _ _ h hg.2⟩
  case refine_10 => exact hg
  case refine_11 => exact hg
  case refine_12 ih _ _ => exact ⟨hg.1, hg.2.1, ih _ _ h hg.2.2⟩
  case refine_13 ihe ihi ihd _ _ =>
    exact ⟨hg.1, hg.2.1, ihe _ _ h hg.2.2.1, ihi _ _ (ExtS.after _ h) hg.2.2.2.1,
      ihd _ _ (ExtS.after _ (ExtS.after _ h)) hg.2.2.2.2⟩
  case refine_14 ihe ihi ihj ihd _ _ =>
    exact ⟨hg.1, hg.2.1, ihe _ _ h hg.2.2.1, ihi _ _ (ExtS.after _ h) hg.2.2.2.1,
      ihj _ _ (ExtS.after _ (ExtS.after _ h)) hg.2.2.2.2.1,
      ihd _ _ (ExtS.after _ (ExtS.after _ (ExtS.after _ h))) hg.2.2.2.2.2⟩
  case refine_15 ih _ _ => exact ⟨hg.1, hg.2.1, ih _ _ h hg.2.2⟩
  case refine_16 ih _ _ => exact ⟨hg.1, hg.2.1, ih _ _ h hg.2.2⟩
  case refine_17 ih _ _ => exact ⟨hg.1, hg.2.1, hg.2.2.1, ih _ _ h hg.2.2.2⟩
  case refine_18 ih _ _ => exact ⟨hg.1, hg.2.1, ih _ _ (ExtS.insertArgs _ h) hg.2.2⟩
  case refine_19 ihe iha _ _ => exact ⟨hg.1, hg.2.1, ihe _ _ h hg.2.2.1, iha _ _ (ExtS.after _ h) hg.2.2.2⟩
  case refine_20 ihi ihr _ _ => exact ⟨hg.1, ihi _ _ h hg.2.1, ihr _ _ (hA _ h) hg.2.2⟩
  case refine_21 ih _ _ => exact ih _ _ h hg
  case refine_22 iho iha _ _ => exact ⟨hg.1, hg.2.1, iho _ _ h hg.2.2.1, iha _ _ (ExtS.after _ h) hg.2.2.2⟩
  case refine_23 ih _ _ => exact ⟨hg.1, ih _ _ h hg.2⟩

/-- Only the types of the constants of the reader matter. -/
theorem good_congr {utf8 : Bytes → Bool} {bwf : B → Prop} {R R' : Reader G B}
    (hc : ∀ (i : Nat) c, R.consts[i]? = some c → ∃ c', R'.consts[i]? = some c' ∧ c'.tpe = c.tpe)
    (hm : R'.methods = R.methods) (e : Expr G B) : ∀ st, Good utf8 bwf R e st → Good utf8 bwf R' e st := by
  refine Expr.rec
    (motive_1 := fun e => ∀ st, Good utf8 bwf R e st → Good utf8 bwf R' e st)
    (motive_2 := fun l => ∀ st, GoodAll utf8 bwf R l st → GoodAll utf8 bwf R' l st)
    ?_ ?_ ?_ ?_ ?_ ?_ ?_ ?_ ?_ ?_ ?_ ?_ ?_ ?_ ?_ ?_ ?_ ?_ ?_ ?_ ?_ ?_ ?_ ?_ ?_ e
  case refine_2 =>
    intro id t st hg
    rw [Good] at hg ⊢
    obtain ⟨c, h1, h2⟩ := hg
    obtain ⟨c', h3, h4⟩ := hc _ _ h1
    exact ⟨c', h3, h4.trans h2⟩
  case refine_18 =>
    intro args body ih st hg
    rw [Good] at hg ⊢
    exact ⟨hg.1, hg.2.1, ih _ hg.2.2⟩
  all_goals clear hc
  all_goals intros
  all_goals simp_all [Good, GoodAll]

theorem ExtS.nil (st : TStore) : ExtS [] st := fun _ _ h => by cases h

/-! ## Headers -/

namespace TreeHeader

theorem version_cases {h : TreeHeader} (hg : GoodHeader h) : h.version = 0 ∨ h.version = 1 := by
  unfold GoodHeader at hg
  have : h.version.toNat = 0 ∨ h.version.toNat = 1 := by omega
  rcases this with h1 | h1
  · left; exact BitVec.eq_of_toNat_eq h1
  · right; exact BitVec.eq_of_toNat_eq h1

theorem new_serialized (h : TreeHeader) (hg : GoodHeader h) : new h.serialized = some h := by
  obtain ⟨v, s, z⟩ := h
  rcases version_cases hg with h1 | h1 <;> simp only at h1 <;> subst h1 <;> cases s <;> cases z <;> decide

theorem new_good {b : Byte} {h : TreeHeader} (e : new b = some h) : GoodHeader h := by
  unfold new at e
  split at e
  · cases e
    unfold GoodHeader
    rename_i hle
    exact hle
  · cases e

end TreeHeader

namespace ETree

theorem header_canon (b : Byte) (hb : b.toNat < 32) (h : TreeHeader) (e : TreeHeader.new b = some h) : h.serialized = b := by
  have h2 : ∀ n : Fin 256, ∀ h ∈ (TreeHeader.new (BitVec.ofFin n)).toList, (BitVec.ofFin n : Byte).toNat < 32 →
      h.serialized = BitVec.ofFin n := by decide +kernel
  exact h2 b.toFin h (by rw [show (BitVec.ofFin b.toFin : Byte) = b from rfl, e]; simp) hb

theorem constant_rto [DecidableEq G] (E : Sers G B T) {bwf : B → Prop} (hbox : BoxRoundTrips E.bc bwf) :
    Rto (GoodConst E.utf8 bwf) (fun c : Constant G B => c.ser E.pc E.bc) (Constant.parse E.utf8 E.pc E.bc) :=
  fun c hc => C14_roundtrip E.utf8 E.pc E.bc bwf hbox c hc.1 hc.2.1 hc.2.2

theorem readAs_false {R : Reader G B} (h : R.subst = false) (e : Expr G B) : mapPh (phOf R) e = e := by
  rw [← readAs_eq]
  unfold readAs
  rw [h]
  rfl

theorem readAs_true {R : Reader G B} (h : R.subst = true) (e : Expr G B) : mapPh (phOf R) e = substAll R.consts e := by
  rw [← readAs_eq]
  unfold readAs
  rw [h]
  rfl

theorem body_rt [DecidableEq G] (E : Sers G B T) {bwf : B → Prop} (hbox : BoxRoundTrips E.bc bwf)
    (hb : NonExp E.bc.parse) (M : Byte → Byte → Option FuncSig) (h : TreeHeader) (C : List (Constant G B)) (root : Expr G B)
    (hC0 : h.seg = false → C = []) (hC1 : C.length ≤ 4096) (hC2 : ∀ c ∈ C, GoodConst E.utf8 bwf c)
    (hr : Good E.utf8 bwf (treeReader C M) root []) :
    ∃ b, serBody E h C root = .ok b ∧
      ∀ st rest, parseBody E M h st (b ++ rest) = some ((parsed h C root, after root st), rest) := by
  obtain ⟨b0, e0, _⟩ := (expr_rt E hbox hb (treeReader C M) root [] hr).parse
  have p0 : ∀ st rest, Expr.parse E (treeReader C M) st (b0 ++ rest) = some ((root, after root st), rest) := by
    intro st rest
    obtain ⟨b1, e1, p1⟩ := (expr_rt E hbox hb (treeReader C M) root st (good_mono root (ExtS.nil st) hr)).parse
    rw [e0] at e1
    cases e1
    rw [p1, readAs_false rfl]
  by_cases hs : h.seg = true
  · obtain ⟨b1, e1, p1⟩ := serMany_rt (constant_rto E hbox) C hC2
    refine ⟨putU32 (BitVec.ofNat 32 C.length) ++ b1 ++ b0, ?_, fun st rest => ?_⟩
    · unfold serBody
      rw [if_pos hs, putCount32_ok (by omega), Outcome.bind_ok, e1, Outcome.bind_ok, e0]
      rfl
    · unfold parseBody
      rw [if_pos hs]
      have hc : parseConstants E (putU32 (BitVec.ofNat 32 C.length) ++ b1 ++ b0 ++ rest) = some (C, b0 ++ rest) := by
        unfold parseConstants
        simp only [List.append_assoc]
        rw [Parser.bind_some (getU32_put _ _), toNat_ofNat32 (by omega), if_neg (by unfold maxConstants; omega), p1]
      rw [Parser.bind_some hc]
      exact (Parser.bind_some (p0 st rest)).trans rfl
  · have hs' : h.seg = false := by simpa using hs
    obtain rfl := hC0 hs'
    refine ⟨b0, ?_, fun st rest => ?_⟩
    · unfold serBody
      rw [if_neg hs, e0]
      rfl
    · unfold parseBody
      rw [if_neg hs]
      rw [Parser.bind_some (show (pure [] : Parser (List (Constant G B))) (b0 ++ rest) = some ([], b0 ++ rest) from rfl)]
      exact (Parser.bind_some (p0 st rest)).trans rfl

theorem ser_parsed [DecidableEq G] (E : Sers G B T) (h : TreeHeader) (C : List (Constant G B)) (root : Expr G B) :
    ser E (parsed h C root) = (serBody E h C root >>= fun body =>
      (if h.hasSize then putCount32 body.length else pure []) >>= fun n => pure (h.serialized :: (n ++ body))) := by
  rfl

/-- What is written is read back, in every reader. -/
theorem rt [DecidableEq G] (E : Sers G B T) {bwf : B → Prop} (hbox : BoxRoundTrips E.bc bwf) (hb : NonExp E.bc.parse)
    (M : Byte → Byte → Option FuncSig) (t : ETree G B) (hg : GoodTree E bwf M t) :
    (FitsSize E t → ∃ bs, ser E t = .ok bs) ∧
    ∀ bs, ser E t = .ok bs → ∀ st, ∃ st', ∀ rest, parseIn E M st (bs ++ rest) = some ((t, st'), rest) := by
  cases t with
  | unparsed bytes =>
    refine ⟨fun _ => ⟨_, rfl⟩, fun bs hs st => ⟨st, fun rest => ?_⟩⟩
    cases hs
    obtain ⟨h, n, body, hh, hz, rfl, hlen, hp⟩ := hg
    unfold parseIn
    rw [List.cons_append, Parser.bind_some (getU8_cons _ _), TreeHeader.new_serialized h hh]
    rw [Parser.bind_some (show Parser.ofOption (some h) _ = some (h, _) from rfl), if_pos hz, List.append_assoc,
      Parser.bind_some (getU32_put _ _), Parser.bind_some (readExact_append' _ _ hlen), hp]
    rfl
  | parsed h C root =>
    obtain ⟨hh, hC0, hC1, hC2, hr⟩ := hg
    obtain ⟨b, e, p⟩ := body_rt E hbox hb M h C root hC0 hC1 hC2 hr
    have hnew := TreeHeader.new_serialized h hh
    by_cases hz : h.hasSize = true
    · refine ⟨fun hf => ?_, fun bs hs st => ⟨st, fun rest => ?_⟩⟩
      · have := hf hz b e
        rw [ser_parsed, e, Outcome.bind_ok, if_pos hz, putCount32_ok this]
        exact ⟨_, rfl⟩
      · rw [ser_parsed, e, Outcome.bind_ok, if_pos hz] at hs
        unfold putCount32 at hs
        split at hs
        · rename_i hlt
          cases hs
          unfold parseIn
          rw [List.cons_append, Parser.bind_some (getU8_cons _ _), hnew]
          rw [Parser.bind_some (show Parser.ofOption (some h) _ = some (h, _) from rfl), if_pos hz, List.append_assoc,
            Parser.bind_some (getU32_put _ _), toNat_ofNat32 hlt, Parser.bind_some (readExact_append _ _)]
          have := p [] []
          rw [List.append_nil] at this
          rw [this]
          rfl
        · cases hs
    · refine ⟨fun _ => ?_, fun bs hs st => ⟨after root st, fun rest => ?_⟩⟩
      · rw [ser_parsed, e, Outcome.bind_ok, if_neg hz]
        exact ⟨_, rfl⟩
      · rw [ser_parsed, e, Outcome.bind_ok, if_neg hz] at hs
        cases hs
        unfold parseIn
        rw [List.cons_append, Parser.bind_some (getU8_cons _ _), hnew]
        rw [Parser.bind_some (show Parser.ofOption (some h) _ = some (h, _) from rfl), if_neg hz]
        exact p st rest

theorem post_body [DecidableEq G] (E : Sers G B T) {bwf : B → Prop} (hb : BoxParsed E.bc bwf)
    (M : Byte → Byte → Option FuncSig) (h : TreeHeader) (hh : GoodHeader h) :
    Post (fun x => GoodTree E bwf M x.1) (parseBody E M h []) := by
  unfold parseBody
  refine Post.bind (Q := fun C : List (Constant G B) => (h.seg = false → C = []) ∧ C.length ≤ 4096 ∧
    ∀ c ∈ C, GoodConst E.utf8 bwf c) ?_ (fun C hC => ?_)
  · refine Post.ite (fun hs => ?_) (fun hs => Post.pure ⟨fun _ => rfl, by simp, by simp⟩)
    unfold parseConstants
    refine Post.bind Post.top (fun n _ => Post.ite (fun _ => Post.fail) (fun hn => ?_))
    refine Post.mono (Post.replicateP (Constant.parsed_good E hb) _) (fun l hl => ⟨fun hf => ?_, ?_, hl.2⟩)
    · rw [hs] at hf; cases hf
    · unfold maxConstants at hn; have := hl.1; omega
  · refine Post.bind (parsed_good_expr E hb (treeReader C M) (by intro h; cases h) []) (fun e he => Post.pure ?_)
    exact ⟨hh, hC.1, hC.2.1, hC.2.2, he.1⟩

theorem parsed_good [DecidableEq G] (E : Sers G B T) {bwf : B → Prop} (hb : BoxParsed E.bc bwf)
    (M : Byte → Byte → Option FuncSig) : Post (fun x => GoodTree E bwf M x.1) (parseIn E M []) := by
  unfold parseIn
  refine Post.bind Post.top (fun b _ => ?_)
  refine Post.bind (Q := GoodHeader) (Post.ofOption (fun h hh => TreeHeader.new_good hh)) (fun h hh => ?_)
  refine Post.ite (fun hz => ?_) (fun _ => post_body E hb M h hh)
  refine Post.bind Post.top (fun n _ => Post.bind (Post.readExact _) (fun buf hlen => ?_))
  split
  · rename_i x hx
    exact Post.pure (post_body E hb M h hh _ x.1 x.2 hx)
  · rename_i hx
    exact Post.pure ⟨h, n, buf, hh, hz, rfl, hlen, hx⟩

theorem nonExp_body (E : Sers G B T) (hb : NonExp E.bc.parse) (M : Byte → Byte → Option FuncSig) (h : TreeHeader)
    (st : TStore) : NonExp (parseBody E M h st : Parser (ETree G B × TStore)) := by
  unfold parseBody
  refine NonExp.bind (p := if h.seg = true then parseConstants E else pure []) (NonExp.ite ?_ (NonExp.pure _)) (fun C => NonExp.bind (parse_nonExp E hb _ st) (fun e => NonExp.pure _))
  unfold parseConstants
  exact NonExp.bind NonExp.getU32 (fun n => NonExp.ite NonExp.fail (NonExp.replicateP (Constant.nonExp_parse _ _ _ hb) _))

theorem nonExp_parseIn (E : Sers G B T) (hb : NonExp E.bc.parse) (M : Byte → Byte → Option FuncSig) (st : TStore) :
    NonExp (parseIn E M st : Parser (ETree G B × TStore)) := by
  unfold parseIn
  refine NonExp.bind NonExp.getU8 (fun b => NonExp.bind (NonExp.ofOption _) (fun h => NonExp.ite ?_ (nonExp_body E hb M h st)))
  refine NonExp.bind NonExp.getU32 (fun n => NonExp.bind (NonExp.readExact _) (fun buf => ?_))
  split <;> exact NonExp.pure _

/-- Making a tree of an expression: the constants are taken out in order, the root has none left. -/
theorem new_seg [DecidableEq G] (E : Sers G B T) {bwf : B → Prop} (hbox : BoxRoundTrips E.bc bwf) (hb : NonExp E.bc.parse)
    (M : Byte → Byte → Option FuncSig) (h : TreeHeader) (hs : h.seg = true) (e : Expr G B) (R0 : Reader G B)
    (hM : R0.methods = M) (hp : NoPh e) (hg : Good E.utf8 bwf R0 e []) (hn : (constsOf e).length ≤ 2 ^ 32 - 1) :
    new E M h e = .ok (parsed h (constsOf e) (segR e 0)) ∧
      Good E.utf8 bwf (treeReader (constsOf e) M) (segR e 0) [] := by
  have hgs : Good E.utf8 bwf (treeReader (constsOf e) M) (segR e 0) [] :=
    good_segR (R0 := R0) hM.symm (by show (constsOf e).length ≤ _; omega) e [] 0 hp hg ⟨[], [], by simp [treeReader], rfl⟩
  refine ⟨?_, hgs⟩
  obtain ⟨b0, e0, p0⟩ := (expr_rt E hbox hb _ _ [] hgs).parse
  obtain ⟨o, w0, w1⟩ := ser_seg E e [] 0 rfl (by omega)
  rw [e0] at w0
  cases o with
  | ok b =>
    cases w0
    unfold new
    rw [if_pos hs, w1]
    have := p0 []
    rw [List.append_nil, readAs_false rfl] at this
    unfold treeReader at this
    simp only [Outcome.bind_ok, List.nil_append, Option.getD_some]
    rw [this]
  | err => cases w0
  | panic => cases w0

/-- `proposition` replaces the placeholders by the constants of the tree, if the root has no other constants. -/
theorem proposition_seg [DecidableEq G] (E : Sers G B T) {bwf : B → Prop} (hbox : BoxRoundTrips E.bc bwf)
    (hb : NonExp E.bc.parse) (M : Byte → Byte → Option FuncSig) (h : TreeHeader) (hs : h.seg = true)
    (C : List (Constant G B)) (root : Expr G B) (hc : NoConst root) (hg : Good E.utf8 bwf (treeReader C M) root []) :
    proposition E M (parsed h C root) = .ok (substAll C root) := by
  obtain ⟨s1, s2⟩ := segR_noConst root hc
  obtain ⟨o, w0, w1⟩ := ser_seg E root [] 0 rfl (by rw [s2]; simp)
  rw [s1] at w0
  have hg' : Good E.utf8 bwf ({ consts := C, subst := true, methods := M } : Reader G B) root [] :=
    good_congr (R := treeReader C M) (R' := { consts := C, subst := true, methods := M }) (fun i c hc => ⟨c, hc, rfl⟩) rfl root [] hg
  obtain ⟨b0, e0, p0⟩ := (expr_rt E hbox hb _ _ [] hg').parse
  rw [e0] at w0
  cases o with
  | ok b =>
    cases w0
    unfold proposition
    simp only [hs, if_true]
    rw [w1]
    have := p0 []
    rw [List.append_nil, readAs_true rfl] at this
    simp only [Outcome.bind_ok]
    rw [this]
  | err => cases w0
  | panic => cases w0

theorem parse_rt [DecidableEq G] (E : Sers G B T) {bwf : B → Prop} (hbox : BoxRoundTrips E.bc bwf) (hb : NonExp E.bc.parse)
    (M : Byte → Byte → Option FuncSig) (t : ETree G B) (hg : GoodTree E bwf M t) (bs : Bytes) (hs : ser E t = .ok bs)
    (rest : Bytes) : parse E M (bs ++ rest) = some (t, rest) := by
  obtain ⟨st', h⟩ := (rt E hbox hb M t hg).2 bs hs []
  unfold parse
  rw [Parser.bind_some (h rest)]
  rfl

theorem parse_good [DecidableEq G] (E : Sers G B T) {bwf : B → Prop} (hb : BoxParsed E.bc bwf)
    (M : Byte → Byte → Option FuncSig) : Post (GoodTree E bwf M) (parse E M) :=
  Post.bind (parsed_good E hb M) (fun x hx => Post.pure hx)

theorem nonExp_parse (E : Sers G B T) (hb : NonExp E.bc.parse) (M : Byte → Byte → Option FuncSig) :
    NonExp (parse E M : Parser (ETree G B)) := NonExp.bind (nonExp_parseIn E hb M []) (fun _ => NonExp.pure _)

/-- Reading a byte string and reading a stream, for a tree that takes the whole stream. -/
theorem bytes_rt [DecidableEq G] (E : Sers G B T) {bwf : B → Prop} (hbox : BoxRoundTrips E.bc bwf) (hb : NonExp E.bc.parse)
    (M : Byte → Byte → Option FuncSig) (t : ETree G B) (hg : GoodTree E bwf M t) (bs : Bytes) (hs : ser E t = .ok bs) :
    parseBytes E M bs = some t := by
  cases t with
  | unparsed bytes =>
    cases hs
    obtain ⟨h, n, body, hh, hz, rfl, hlen, hp⟩ := hg
    unfold parseBytes
    rw [Parser.bind_some (getU8_cons _ _), TreeHeader.new_serialized h hh]
    simp only [Parser.ofOption, Parser.pure_run, hz, if_true]
    have := readExact_append' (n := n.toNat) body [] hlen
    rw [List.append_nil] at this
    rw [Parser.bind_some (getU32_put _ _), this]
    simp only [if_true, hp]
  | parsed h C root =>
    obtain ⟨hh, hC0, hC1, hC2, hr⟩ := hg
    obtain ⟨b, e, p⟩ := body_rt E hbox hb M h C root hC0 hC1 hC2 hr
    have hnew := TreeHeader.new_serialized h hh
    have p0 := p [] []
    rw [List.append_nil] at p0
    rw [ser_parsed, e, Outcome.bind_ok] at hs
    by_cases hz : h.hasSize = true
    · rw [if_pos hz] at hs
      unfold putCount32 at hs
      split at hs
      · rename_i hlt
        cases hs
        unfold parseBytes
        rw [Parser.bind_some (getU8_cons _ _), hnew]
        simp only [Parser.ofOption, Parser.pure_run, hz, if_true]
        have := readExact_append b []
        rw [List.append_nil] at this
        rw [Parser.bind_some (getU32_put _ _), toNat_ofNat32 hlt, this]
        simp only [if_true, p0]
      · cases hs
    · rw [if_neg hz] at hs
      cases hs
      unfold parseBytes
      simp only [List.nil_append]
      rw [Parser.bind_some (getU8_cons _ _), hnew]
      simp only [Parser.ofOption, Parser.pure_run, if_neg hz, p0, if_true]

theorem unparsed_in_box [DecidableEq G] (E : Sers G B T) (M : Byte → Byte → Option FuncSig) (hd : Byte) (hd32 : hd.toNat < 32)
    (n : BitVec 32) (body rest : Bytes) (hl : body.length = n.toNat) (b r : Bytes)
    (h : parse E M (hd :: (putU32 n ++ (body ++ rest))) = some ((.unparsed b : ETree G B), r)) :
    b = hd :: (putU32 n ++ body) ∧ r = rest ∧ ser E (.unparsed b : ETree G B) = .ok (hd :: (putU32 n ++ body)) := by
  have hbody : ∀ (h' : TreeHeader) (s : Bytes) st x, parseBody E M h' st s = some x → x.1.1 ≠ (.unparsed b : ETree G B) := by
    intro h' s st x hx
    unfold ETree.parseBody at hx
    obtain ⟨C, r, _, h2⟩ := Parser.bind_eq_some.1 hx
    obtain ⟨e, r', _, h4⟩ := Parser.bind_eq_some.1 h2
    simp only [Parser.pure_run, Option.some.injEq] at h4
    subst h4
    exact fun h => by cases h
  unfold parse at h
  obtain ⟨x, r', h1, h2⟩ := Parser.bind_eq_some.1 h
  simp only [Parser.pure_run, Option.some.injEq, Prod.mk.injEq] at h2
  obtain ⟨h2, rfl⟩ := h2
  unfold parseIn at h1
  rw [Parser.bind_some (getU8_cons _ _)] at h1
  cases hn : TreeHeader.new hd with
  | none => rw [hn] at h1; cases h1
  | some hh =>
    rw [hn, Parser.bind_some (show Parser.ofOption (some hh) _ = some (hh, _) from rfl)] at h1
    split at h1
    · rw [Parser.bind_some (getU32_put _ _), Parser.bind_some (readExact_append' _ _ hl)] at h1
      have hser := header_canon hd hd32 hh hn
      cases hy : parseBody E M hh [] body with
      | some y =>
        rw [hy] at h1
        simp only [Parser.pure_run, Option.some.injEq, Prod.mk.injEq] at h1
        rw [← h1.1] at h2
        exact absurd h2 (hbody _ _ _ _ hy)
      | none =>
        rw [hy] at h1
        simp only [Parser.pure_run, Option.some.injEq, Prod.mk.injEq] at h1
        rw [← h1.1] at h2
        simp only [ETree.unparsed.injEq] at h2
        rw [hser] at h2
        subst h2
        exact ⟨rfl, h1.2.symm, rfl⟩
    · exact absurd h2 (hbody _ _ _ _ h1)

theorem many_constants [DecidableEq G] (E : Sers G B T) {bwf : B → Prop} (hbox : BoxRoundTrips E.bc bwf)
    (hb : NonExp E.bc.parse) (M : Byte → Byte → Option FuncSig) (R0 : Reader G B) (hM : R0.methods = M) (e : Expr G B)
    (hp : NoPh e) (hg : Good E.utf8 bwf R0 e []) (hc : ∀ c ∈ constsOf e, GoodConst E.utf8 bwf c)
    (h1 : 4096 < (constsOf e).length) (h2 : (constsOf e).length ≤ 2 ^ 32 - 1) :
    ∃ t bs, new E M (TreeHeader.v0 true) e = .ok t ∧ ser E t = .ok bs ∧ parse E M bs = none ∧
      parseBytes E M bs = some (.unparsed bs) := by
  obtain ⟨n1, n2⟩ := new_seg E hbox hb M (TreeHeader.v0 true) rfl e R0 hM hp hg h2
  obtain ⟨b0, e0, _⟩ := (expr_rt E hbox hb _ _ [] n2).parse
  obtain ⟨b1, e1, _⟩ := serMany_rt (constant_rto E hbox) (constsOf e) hc
  have hbody : serBody E (TreeHeader.v0 true) (constsOf e) (segR e 0) =
      .ok (putU32 (BitVec.ofNat 32 (constsOf e).length) ++ b1 ++ b0) := by
    unfold serBody
    rw [if_pos (by rfl : (TreeHeader.v0 true).seg = true), putCount32_ok (by omega), Outcome.bind_ok, e1, Outcome.bind_ok, e0]
    rfl
  have hpc : parseBody E M (TreeHeader.v0 true) [] (putU32 (BitVec.ofNat 32 (constsOf e).length) ++ b1 ++ b0) =
      (none : Option ((ETree G B × TStore) × Bytes)) := by
    unfold parseBody
    rw [if_pos (by rfl : (TreeHeader.v0 true).seg = true)]
    refine Parser.bind_none ?_
    unfold parseConstants
    rw [List.append_assoc, Parser.bind_some (getU32_put _ _), toNat_ofNat32 (by omega), if_pos (by unfold maxConstants; omega)]
    rfl
  refine ⟨_, (TreeHeader.v0 true).serialized :: (putU32 (BitVec.ofNat 32 (constsOf e).length) ++ b1 ++ b0), n1, ?_, ?_, ?_⟩
  · rw [ser_parsed, hbody, Outcome.bind_ok]
    rfl
  · unfold parse parseIn
    refine Parser.bind_none ?_
    rw [Parser.bind_some (getU8_cons _ _), TreeHeader.new_serialized _ (by unfold GoodHeader; decide),
      Parser.bind_some (show Parser.ofOption (some (TreeHeader.v0 true)) _ = some (_, _) from rfl), if_neg (by decide)]
    exact hpc
  · unfold parseBytes
    rw [Parser.bind_some (getU8_cons _ _), TreeHeader.new_serialized _ (by unfold GoodHeader; decide)]
    simp only [Parser.ofOption, Parser.pure_run, hpc]
    rfl

end ETree
end Verif
