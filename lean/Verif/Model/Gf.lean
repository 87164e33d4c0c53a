import Verif.Model.GfTables

/-!
# The field GF(2^192): `gf2_192/src/gf2_192.rs`, `gf2_192/src/gf2_192poly.rs`

Words are `BitVec 64` (`i64` with `<<`, `^`, `|`, `*` and the logical right shift `lrs_i64`, `gf2_192/src/lib.rs:34`).
Array indexing out of bounds is a panic in the code; the only place where it can happen is the polynomial code, where it
is the outcome `panic`.
-/

namespace Verif.Gf

/-- `Gf2_192`, `gf2_192.rs:59-61`. -/
structure Gf where
  w0 : BitVec 64
  w1 : BitVec 64
  w2 : BitVec 64
deriving DecidableEq

/-- `IRRED_PENTANOMIAL`, `gf2_192.rs:31`. -/
def irred : BitVec 64 := (1#64 <<< 7) ||| (1#64 <<< 2) ||| (1#64 <<< 1) ||| 1#64

/-- `IRRED_MULS`, `gf2_192.rs:35-55`. -/
def irredMuls : List (BitVec 64) :=
  [0#64, irred, irred <<< 1, (irred <<< 1) ^^^ irred, irred <<< 2, (irred <<< 2) ^^^ irred,
    (irred <<< 2) ^^^ (irred <<< 1), (irred <<< 2) ^^^ (irred <<< 1) ^^^ irred,
    irred <<< 3, (irred <<< 3) ^^^ irred, (irred <<< 3) ^^^ (irred <<< 1), (irred <<< 3) ^^^ (irred <<< 1) ^^^ irred,
    (irred <<< 3) ^^^ (irred <<< 2), (irred <<< 3) ^^^ (irred <<< 2) ^^^ irred,
    (irred <<< 3) ^^^ (irred <<< 2) ^^^ (irred <<< 1), (irred <<< 3) ^^^ (irred <<< 2) ^^^ (irred <<< 1) ^^^ irred]

/-- `IRRED_MULS[i]`; the index is four bits wide at all places of use, `gf2_192/src/gf2_192.rs:107, 141`. -/
def irredMul (i : Nat) : BitVec 64 := (irredMuls[i]?).getD 0#64

/-- `Gf2_192::new`, `gf2_192.rs:65`. -/
def zero : Gf := ⟨0#64, 0#64, 0#64⟩

/-- `From<i32>`, `gf2_192.rs:340-347`, used with the arguments 0 and 1 only. -/
def fromI32 (v : BitVec 32) : Gf := ⟨v.signExtend 64 &&& 0xFFFFFFFF#64, 0#64, 0#64⟩

/-- `is_zero`, `gf2_192.rs:70-72`. -/
def Gf.isZero (a : Gf) : Bool := a.w0 == 0#64 && a.w1 == 0#64 && a.w2 == 0#64

/-- `is_one`, `gf2_192.rs:75-77`. -/
def Gf.isOne (a : Gf) : Bool := a.w0 == 1#64 && a.w1 == 0#64 && a.w2 == 0#64

/-- `Add`, `gf2_192.rs:285-294`. -/
def add (a b : Gf) : Gf := ⟨a.w0 ^^^ b.w0, a.w1 ^^^ b.w1, a.w2 ^^^ b.w2⟩

/-- One pass of the loop `for i in [2, 4, 8]`, `gf2_192.rs:100-108`. -/
def timesX (a : Gf) : Gf :=
  ⟨(a.w0 <<< 1) ^^^ irredMul (a.w2 >>> 63).toNat, (a.w1 <<< 1) ||| (a.w0 >>> 63), (a.w2 <<< 1) ||| (a.w1 >>> 63)⟩

/-- The table `a0muls`, `a1muls`, `a2muls` as one list of triples, `gf2_192.rs:89-127`. -/
def mulTable (a : Gf) : List Gf :=
  let a2 := timesX a
  let a4 := timesX a2
  let a8 := timesX a4
  let low := [zero, a, a2, add a a2]
  let mid := low ++ [a4, add a4 a, add a4 a2, add a4 (add a a2)]
  mid ++ [a8] ++ (mid.drop 1).map (add a8)

/-- Multiplication of the accumulator by `x^4`, `gf2_192.rs:137-141`. -/
def timesX4 (w : Gf) : Gf :=
  ⟨(w.w0 <<< 4) ^^^ irredMul (w.w2 >>> 60).toNat, (w.w1 <<< 4) ||| (w.w0 >>> 60), (w.w2 <<< 4) ||| (w.w1 >>> 60)⟩

/-- One pass of the inner loop, `gf2_192.rs:136-148`. -/
def mulStep (tab : List Gf) (multiplier : BitVec 64) (w : Gf) (i : Nat) : Gf :=
  add (timesX4 w) ((tab[((multiplier >>> i) &&& 15#64).toNat]?).getD zero)

/-- `(0..=60).rev().step_by(4)`, `gf2_192.rs:135`. -/
def nibbles : List Nat := [60, 56, 52, 48, 44, 40, 36, 32, 28, 24, 20, 16, 12, 8, 4, 0]

/-- `Gf2_192::multiply`, `gf2_192.rs:82-152`. -/
def multiply (a b : Gf) : Gf :=
  let tab := mulTable a
  [b.w2, b.w1, b.w0].foldl (fun w multiplier => nibbles.foldl (mulStep tab multiplier) w) zero

/-- One pass of the loop of `mul_by_i8`, `gf2_192.rs:160-169`. -/
def mulI8Step (a : Gf) (b : Byte) (w : Gf) (i : Nat) : Gf :=
  let w3 := w.w2 >>> 63
  let t : BitVec 64 := ((b >>> i) &&& 1#8).signExtend 64
  ⟨(w.w0 <<< 1) ^^^ ((a.w0 * t) ^^^ (irred * w3)),
   ((w.w1 <<< 1) ||| (w.w0 >>> 63)) ^^^ (a.w1 * t),
   ((w.w2 <<< 1) ||| (w.w1 >>> 63)) ^^^ (a.w2 * t)⟩

/-- `Gf2_192::mul_by_i8`, `gf2_192.rs:155-171`. -/
def mulByI8 (a : Gf) (b : Byte) : Gf := [7, 6, 5, 4, 3, 2, 1, 0].foldl (mulI8Step a b) zero

/-- Row `k` of the three power tables, as triples, `gf2_192/src/gf2_192.rs:253-255`. -/
def powRow (k : Nat) : List Gf :=
  (powTable0 k).zipWith (fun a bc => ⟨BitVec.ofNat 64 a, BitVec.ofNat 64 bc.1, BitVec.ofNat 64 bc.2⟩)
    ((powTable1 k).zip (powTable2 k))

/-- The `while i < max_index` loop, `gf2_192.rs:249-258`, for the entries belonging to one word. -/
def powWord : List Gf → BitVec 64 → Gf → Gf
  | [], _, t => t
  | e :: es, w, t =>
    let m := w &&& 1#64
    powWord es (w >>> 1) ⟨t.w0 ^^^ e.w0 * m, t.w1 ^^^ e.w1 * m, t.w2 ^^^ e.w2 * m⟩

/-- The table branch of `power_2_to_2_to_k`, `gf2_192.rs:242-260`. -/
def powLin (k : Nat) (z : Gf) : Gf :=
  let row := powRow k
  powWord ((row.drop 128).take 64) z.w2 (powWord ((row.drop 64).take 64) z.w1 (powWord (row.take 64) z.w0 zero))

/-- `Gf2_192::power_2_to_2_to_k`, `gf2_192.rs:211-262`. -/
def pow2To2ToK (z : Gf) (k : Nat) : Gf :=
  if k ≥ 7 then
    let res := powLin 6 z
    if k % 2 = 1 then powLin 6 res else res
  else powLin k z

/-- `Gf2_192::sqr`, `gf2_192.rs:204-206`. -/
def sqr (z : Gf) : Gf := pow2To2ToK z 0

/-- The `while k < 6` loop of `invert`, `gf2_192.rs:188-196`, on the state
`(z_to_2_to_k1s, z_to_2_to_k1s_2_to_k0s, res)`. -/
def invLoop : List Nat → Gf × Gf × Gf → Gf × Gf × Gf
  | [], s => s
  | k :: ks, (z1, z10, res) =>
    let z1' := multiply z10 z1
    let z10' := pow2To2ToK z1' k
    invLoop ks (z1', z10', multiply res z10')

/-- `Gf2_192::invert`, `gf2_192.rs:174-199`. -/
def invert (z : Gf) : Gf :=
  let res := multiply z z
  let s := invLoop [1, 2, 3, 4, 5, 6] (z, res, res)
  multiply s.2.2 (pow2To2ToK s.2.1 6)

/-- The eight bytes of a word, lowest first: `((word >> (i << 3)) & 0xFF) as u8`, `gf2_192.rs:265-275` and `316-326`
(the arithmetic shift agrees with the logical one in the eight bits kept). -/
def wordBytes (w : BitVec 64) : Bytes := (List.range 8).map fun i => ((w.sshiftRight (8 * i)) &&& 0xFF#64).setWidth 8

/-- `From<Gf2_192> for [u8; 24]`, `gf2_192.rs:316-326`. -/
def toBytes (a : Gf) : Bytes := wordBytes a.w0 ++ wordBytes a.w1 ++ wordBytes a.w2

/-- `word |= (bytes[i] as i64 & 0xFF) << (i << 3)` for `i` in `0..8`, `gf2_192.rs:385-390`.  (`as i64` of the `i8`
versions sign-extends, the mask removes the sign bits again.) -/
def bytesWord (bs : Bytes) : BitVec 64 :=
  (List.range 8).foldl (fun w i => w ||| ((bs.getD i 0#8).setWidth 64 &&& 0xFF#64) <<< (8 * i)) 0#64

/-- `TryFrom<&[u8]>`, `gf2_192.rs:366-381`: the first 24 bytes, an error if there are fewer. -/
def ofBytes (bs : Bytes) : Option Gf :=
  if bs.length < 24 then none else some ⟨bytesWord bs, bytesWord (bs.drop 8), bytesWord (bs.drop 16)⟩

/-- `From<[u8; 24]>`, `gf2_192.rs:383-393`; the argument has 24 bytes. -/
def ofBytes24 (bs : Bytes) : Gf := ⟨bytesWord bs, bytesWord (bs.drop 8), bytesWord (bs.drop 16)⟩

/-! ## Polynomials over the field: `gf2_192poly.rs` -/

/-- `Gf2_192Poly`, `gf2_192poly.rs:43-48`. -/
structure Poly where
  coefficients : List Gf
  degree : Nat
deriving DecidableEq

/-- `make_constant(max_degree, constant_term)`, `gf2_192poly.rs:170-180`. -/
def makeConstant (maxDegree : Nat) (constantTerm : BitVec 32) : Poly :=
  { coefficients := fromI32 constantTerm :: List.replicate maxDegree zero, degree := 0 }

/-- `self.coefficients[i]`, `gf2_192/src/gf2_192poly.rs:101-149`. -/
def coeff (cs : List Gf) (i : Nat) : Outcome Gf :=
  match cs[i]? with
  | some c => .ok c
  | none => .panic

/-- The loop of `evaluate`, `gf2_192poly.rs:120-123`: `n` is `d + 1`. -/
def evalLoop (cs : List Gf) (x : Byte) : Nat → Gf → Outcome Gf
  | 0, res => .ok res
  | d + 1, res => do
    let c ← coeff cs d
    evalLoop cs x d (add (mulByI8 res x) c)

/-- `evaluate`, `gf2_192poly.rs:114-126`. -/
def Poly.evaluate (p : Poly) (x : Byte) : Outcome Gf := do
  let res ← coeff p.coefficients p.degree
  evalLoop p.coefficients x p.degree res

/-- `self.coefficients[i] = v`, `gf2_192/src/gf2_192poly.rs:101-149`. -/
def setCoeff (cs : List Gf) (i : Nat) (v : Gf) : Outcome (List Gf) :=
  if i < cs.length then .ok (cs.set i v) else .panic

/-- The loop of `add_monic_times_constant`, `gf2_192poly.rs:148-151`, from index `i` on, `n` passes left. -/
def addMonicLoop (ps : List Gf) (r : Gf) : Nat → Nat → List Gf → Outcome (List Gf)
  | 0, _, cs => .ok cs
  | n + 1, i, cs => do
    let p ← coeff ps i
    let c ← coeff cs i
    let cs ← setCoeff cs i (add c (multiply p r))
    addMonicLoop ps r n (i + 1) cs

/-- `add_monic_times_constant`, `gf2_192poly.rs:146-154`. -/
def Poly.addMonicTimesConstant (self p : Poly) (r : Gf) : Outcome Poly := do
  let cs ← addMonicLoop p.coefficients r p.degree 0 self.coefficients
  let cs ← setCoeff cs p.degree r
  pure { coefficients := cs, degree := p.degree }

/-- The loop `for i in (1..self.degree).rev()`, `gf2_192poly.rs:161-164`, for indices `n, n-1, …, 1`. -/
def mulLinearLoop (r : Byte) : Nat → List Gf → Outcome (List Gf)
  | 0, cs => .ok cs
  | n + 1, cs => do
    let c ← coeff cs (n + 1)
    let b ← coeff cs n
    let cs ← setCoeff cs (n + 1) (add (mulByI8 c r) b)
    mulLinearLoop r n cs

/-- `multiply_by_linear_binomial`, `gf2_192poly.rs:158-166`. -/
def Poly.multiplyByLinearBinomial (self : Poly) (r : Byte) : Outcome Poly := do
  let degree := self.degree + 1
  let cs ← setCoeff self.coefficients degree (fromI32 1#32)
  let cs ← mulLinearLoop r (degree - 1) cs
  let c ← coeff cs 0
  let cs ← setCoeff cs 0 (mulByI8 c r)
  pure { coefficients := cs, degree := degree }

/-- The loop of `interpolate`, `gf2_192poly.rs:83-98`, on the remaining points and values. -/
def interpLoop : List (Byte × Gf) → Poly × Poly → Outcome (Poly × Poly)
  | [], s => .ok s
  | (x, v) :: rest, (result, vanishing) => do
    let t ← result.evaluate x
    let s ← vanishing.evaluate x
    let result ← result.addMonicTimesConstant vanishing (multiply (add t v) (invert s))
    let vanishing ← vanishing.multiplyByLinearBinomial x
    interpLoop rest (result, vanishing)

/-- `Gf2_192Poly::interpolate`, `gf2_192poly.rs:69-111`. -/
def interpolate (points : List Byte) (values : List Gf) (valueAtZero : Gf) : Outcome Poly :=
  if points.length ≠ values.length then .err
  else do
    let (result, vanishing) ← interpLoop (points.zip values)
      (makeConstant values.length 0#32, makeConstant values.length 1#32)
    let t ← coeff result.coefficients 0
    let s ← coeff vanishing.coefficients 0
    result.addMonicTimesConstant vanishing (multiply (add t valueAtZero) (invert s))

/-- The loop of `to_bytes`, `gf2_192poly.rs:133-138`: coefficients `i, i+1, …`, `n` of them. -/
def toBytesLoop (cs : List Gf) : Nat → Nat → Outcome Bytes
  | 0, _ => .ok []
  | n + 1, i => do
    let c ← coeff cs i
    let rest ← toBytesLoop cs n (i + 1)
    pure (toBytes c ++ rest)

/-- `to_bytes`, `gf2_192poly.rs:131-140`. -/
def Poly.toBytes (p : Poly) : Outcome Bytes := toBytesLoop p.coefficients p.degree 1

/-- The loop of `try_from`, `gf2_192poly.rs:193-195`. -/
def ofBytesLoop : Nat → Bytes → Option (List Gf)
  | 0, _ => some []
  | n + 1, bs => do
    let c ← ofBytes bs
    let cs ← ofBytesLoop n (bs.drop 24)
    pure (c :: cs)

/-- `TryFrom<CoefficientsByteRepr>`, `gf2_192poly.rs:188-200`; `coeff0` has 24 bytes. -/
def Poly.ofBytes (coeff0 more : Bytes) : Option Poly := do
  let degree := more.length / 24
  let cs ← ofBytesLoop degree more
  pure { coefficients := ofBytes24 coeff0 :: cs, degree := degree }

end Verif.Gf
