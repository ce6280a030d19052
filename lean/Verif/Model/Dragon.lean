import Verif.Model.Bignum
/-
Model of include/emio/detail/format/decode.hpp and include/emio/detail/format/dragon.hpp.

The digits are produced in a write area of a fresh memory buffer, which always hands one out; the area is a list here.
An access outside of the area is undefined behaviour.
-/
namespace Emio

/-- `finite_result_t` (decode.hpp:20-26). -/
structure Finite where
  mant : Nat := 0
  minus : Nat := 0
  plus : Nat := 0
  exp : Int := 0
  inclusive : Bool := false
  deriving DecidableEq, Repr

/-- `category` (decode.hpp:28). -/
inductive Category
  | zero | finite | infinity | nan
  deriving DecidableEq, Repr

/-- `decode_result_t` (decode.hpp:30-34). -/
structure Decoded where
  negative : Bool := false
  category : Category := .zero
  finite : Finite := {}
  deriving DecidableEq, Repr

/-- `decode` (decode.hpp:36-77) of the double with the given bit pattern.  `value == 0` holds for the patterns of `+0`
and `-0` only. -/
def decode (bits : Nat) : Decoded :=
  let negative := decide (bits / 2 ^ 63 ≠ 0)
  if bits % 2 ^ 63 = 0 then { negative := negative }
  else
    let exp : Int := ((bits / 2 ^ 52) % 2 ^ 11 : Nat) - 1075
    let mant := if exp = -1075 then (bits % 2 ^ 52) * 2 else bits % 2 ^ 52
    let inclusive := decide (mant % 2 = 0)
    if exp = 972 then
      { negative := negative
        category := if mant = 0 then .infinity else .nan
        finite := { mant := mant, exp := exp, inclusive := inclusive } }
    else if exp ≠ -1075 then
      let mant := mant + 2 ^ 52
      if mant = 2 ^ 52 then
        { negative := negative, category := .finite
          finite := { mant := mant * 4, minus := 1, plus := 2, exp := exp - 2, inclusive := inclusive } }
      else
        { negative := negative, category := .finite
          finite := { mant := mant * 2, minus := 1, plus := 1, exp := exp - 1, inclusive := inclusive } }
    else
      { negative := negative, category := .finite
        finite := { mant := mant, minus := 1, plus := 1, exp := exp, inclusive := inclusive } }

/-- `estimate_scaling_factor` (dragon.hpp:27-33); the result fits an `int16_t` for every double. -/
def estimateScalingFactor (mant : Nat) (exp : Int) : Int :=
  ((bitWidth (mant - 1) : Int) + exp) * 1292913986 / 4294967296

/-- `round_up` (dragon.hpp:35-58): the digits and the character to append, if any. -/
def roundUp (d : Str) : Str × Option Char :=
  let nines := (d.reverse.takeWhile (· == '9')).length
  if nines < d.length then
    let i := d.length - nines - 1
    ((d.take i) ++ Char.ofNat ((d.getD i '0').toNat + 1) :: List.replicate nines '0', none)
  else if d ≠ [] then ('1' :: List.replicate (d.length - 1) '0', some '0')
  else (d, some '1')

/-- Code that may be undefined behaviour or terminate the program, but does not return errors (`format_exact` and
`format_shortest`, detail/format/dragon.hpp:67-68, 207-208). -/
abbrev Pure' := M Unit

/-- Undefined behaviour of a bignum operation (detail/bignum.hpp:121-330). -/
def need {α : Type} : Option α → Pure' α
  | some a => pure a
  | none => M.bad .ub

/-- `a >= b` (detail/format/dragon.hpp:123, 152-164, 313-325, 383). -/
def Bignum.ge (a b : Bignum) : Pure' Bool := do
  let o ← need (Bignum.cmp a b)
  return o != .lt

/-- `if (mant >= s) { mant.sub(s); d += v; }` (dragon.hpp:151-166, 313-328). -/
def digitPart (mant s : Bignum) (d v : Nat) : Pure' (Bignum × Nat) := do
  if ← mant.ge s then
    let m ← need (mant.sub s)
    return (m, d + v)
  else return (mant, d)

/-- One digit (dragon.hpp:150-167, 312-329). -/
def nextDigit' (mant s1 s2 s4 s8 : Bignum) : Pure' (Bignum × Nat) := do
  let (m, d) ← digitPart mant s8 0 8
  let (m, d) ← digitPart m s4 d 4
  let (m, d) ← digitPart m s2 d 2
  digitPart m s1 d 1

/-- `static_cast<char>('0' + d)` (detail/format/dragon.hpp:170, 331). -/
def digitCharOf (d : Nat) : Char := Char.ofNat ((48 + d) % 256)

/-- Scaling (dragon.hpp:80-104, 246-274): `s2`, `s5`, `m2`, `m5`. -/
def scaling (exp k : Int) : Nat × Nat × Nat × Nat :=
  let s2 := if exp < 0 then (-exp).toNat else 0
  let m2 := if exp < 0 then 0 else exp.toNat
  if k ≥ 0 then (s2 + k.toNat, k.toNat, m2, 0) else (s2, 0, m2 + (-k).toNat, (-k).toNat)

/-- `x.mul_pow5(p5); x.mul_pow2(p2);` (detail/format/dragon.hpp:100-103, 265-272). -/
def scaleBy (x : Bignum) (p5 p2 : Nat) : Pure' Bignum := do
  let y ← need (x.mulPow5 p5)
  need (y.mulPow2 p2)

/-- `format_exact_mode` (dragon.hpp:65). -/
inductive ExactMode
  | significandDigits | decimalPoint
  deriving DecidableEq, Repr

/-- The digit loop of `format_exact` (dragon.hpp:141-173).  `n` is `len - i`.  Result: the digits from `i` on, and the
remaining `mant`, or nothing if the loop was left by `return`. -/
def exactLoop (s1 s2 s4 s8 : Bignum) : Nat → Bignum → Pure' (Str × Option Bignum)
  | 0, mant => pure ([], some mant)
  | n + 1, mant =>
    if mant.isZero then pure (List.replicate (n + 1) '0', none)
    else do
      let (m, d) ← nextDigit' mant s1 s2 s4 s8
      let m ← need (m.mulSmall 10)
      let (ds, rest) ← exactLoop s1 s2 s4 s8 n m
      return (digitCharOf d :: ds, rest)

/-- The rounding of `format_exact` (dragon.hpp:178-204). -/
def exactRound (mant scale : Bignum) (dst : Str) (k n : Int) : Pure' (Str × Int) := do
  let s5 ← need (scale.mulSmall 5)
  let order ← need (mant.cmp s5)
  let len := dst.length
  let odd := len > 0 && (dst.getLastD '0').toNat % 2 == 1
  if order == .gt || (order == .eq && odd) then
    match roundUp dst with
    | (dst, none) => return (dst, k)
    | (dst, some c) =>
      let k := k + 1
      if k > -n then
        let dst := if len = 0 then [noCharDst] else dst
        if len ≠ 0 ∧ len < dst.length then return ([], 0)
        else if len < dst.length then return ((dst.set len c).take (len + 1), k)
        else return (dst.take len, k)
      else return (dst.take len, k)
  else return (dst, k)
where
  /-- Content of a fresh write area. -/
  noCharDst : Char := Char.ofNat 0

/-- The buffer size of `format_exact` (dragon.hpp:107-114): `len` and `extra_len`.  A negative number of digits becomes
a huge `size_t`, whose allocation fails. -/
def exactLen (mode : ExactMode) (k n : Int) : Pure' (Nat × Nat) :=
  match mode with
  | .significandDigits => if n < 0 then M.bad .terminate else pure (n.toNat, 0)
  | .decimalPoint => if k + n ≥ 0 then pure ((k + n).toNat, 1) else pure (0, 0)

/-- `format_exact` (dragon.hpp:67-205): the digits and the exponent. -/
def formatExact (dec : Finite) (mode : ExactMode) (n : Int) : Pure' (Str × Int) := do
  let k := estimateScalingFactor dec.mant dec.exp
  let (s2, s5, m2, m5) := scaling dec.exp k
  let scale ← scaleBy (Bignum.ofU32 1) s5 s2
  let mant ← scaleBy (Bignum.ofU64 dec.mant) m5 m2
  let (len, extra) ← exactLen mode k n
  let geq ← mant.ge scale
  let mant ← if geq then pure mant else need (mant.mulSmall 10)
  let k := if geq then k + 1 else k
  let len := if geq then len + extra else len
  if len > 0 then
    let scale2 ← need (scale.mulPow2 1)
    let scale4 ← need (scale.mulPow2 2)
    let scale8 ← need (scale.mulPow2 3)
    let (dst, rest) ← exactLoop scale scale2 scale4 scale8 len mant
    match rest with
    | none => return (dst, k)
    | some mant => exactRound mant scale dst k n
  else exactRound mant scale [] k n

/-- `rounding` (dragon.hpp:225-230). -/
def roundingOf (inclusive : Bool) (o : Ordering) : Bool := if inclusive then o != .gt else o == .lt

/-- The digit loop of `format_shortest` (dragon.hpp:302-378).  `room` is the number of characters left in the write area
of 17.  Result: the digits from `i` on, the remaining `mant`, and `down` and `up`. -/
def shortestLoop (inclusive : Bool) (s1 s2 s4 s8 : Bignum) :
    Nat → (mant minus plus : Bignum) → Pure' (Str × Bignum × Bool × Bool)
  | 0, _, _, _ => M.bad .ub
  | room + 1, mant, minus, plus => do
    let (m, d) ← nextDigit' mant s1 s2 s4 s8
    let down := roundingOf inclusive (← need (m.cmp minus))
    let up := roundingOf inclusive (← need (s1.cmp (← need (m.add plus))))
    if down || up then return ([digitCharOf d], m, down, up)
    else
      let m ← need (m.mulSmall 10)
      let minus ← need (minus.mulSmall 10)
      let plus ← need (plus.mulSmall 10)
      let (ds, r) ← shortestLoop inclusive s1 s2 s4 s8 room m minus plus
      return (digitCharOf d :: ds, r)

/-- `std::numeric_limits<double>::max_digits10` (detail/format/dragon.hpp:298). -/
def maxDigits10 : Nat := 17

/-- The rounding of `format_shortest` (dragon.hpp:383-394). -/
def shortestRound (ds : Str) (k : Int) (roundUpNow : Bool) : Pure' (Str × Int) :=
  if roundUpNow then
    match roundUp ds with
    | (ds, none) => pure (ds, k)
    | (ds, some c) => if ds.length < maxDigits10 then pure (ds ++ [c], k + 1) else M.bad .ub
  else pure (ds, k)

/-- `format_shortest` (dragon.hpp:207-395): the digits and the exponent. -/
def formatShortest (dec : Finite) : Pure' (Str × Int) := do
  let k := estimateScalingFactor (dec.mant + dec.plus) dec.exp
  let (s2, s5, m2, m5) := scaling dec.exp k
  let scale ← scaleBy (Bignum.ofU32 1) s5 s2
  let mant ← scaleBy (Bignum.ofU64 dec.mant) m5 m2
  let minus ← scaleBy (Bignum.ofU64 dec.minus) m5 m2
  let plus ← scaleBy (Bignum.ofU64 dec.plus) m5 m2
  let fits := roundingOf dec.inclusive (← need (scale.cmp (← need (mant.add plus))))
  let mant ← if fits then pure mant else need (mant.mulSmall 10)
  let minus ← if fits then pure minus else need (minus.mulSmall 10)
  let plus ← if fits then pure plus else need (plus.mulSmall 10)
  let k := if fits then k + 1 else k
  let scale2 ← need (scale.mulPow2 1)
  let scale4 ← need (scale.mulPow2 2)
  let scale8 ← need (scale.mulPow2 3)
  let (ds, m, down, up) ← shortestLoop dec.inclusive scale scale2 scale4 scale8 maxDigits10 mant minus plus
  let roundUpNow ← (if up then (if !down then pure true else do
    let m2 ← need (m.mulPow2 1)
    m2.ge scale) else pure false)
  shortestRound ds k roundUpNow

end Emio
