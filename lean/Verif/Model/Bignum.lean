import Verif.Model.Conversion
import Verif.Base
/-
Model of include/emio/detail/bignum.hpp.  A `uint32_t`/`uint64_t` is a natural number reduced by its modulus, the array
is a list of 34 blocks; an access outside of the array is `none` (undefined behaviour).  The assertions
(`EMIO_Z_DEV_ASSERT`) do nothing in a normal build and are not part of the model.
-/
namespace Emio

/-- 2^32 (the blocks are of type `uint32_t`, detail/bignum.hpp:30-33). -/
def W : Nat := 4294967296

/-- `carrying_add` (bignum.hpp:30-36). -/
def carryingAdd (a b : Nat) (carry : Bool) : Nat × Bool :=
  let v1 := (a + b) % W
  let carry1 := decide (v1 < a)
  let v2 := (v1 + carry.toNat) % W
  let carry2 := decide (v2 < v1)
  (v2, carry1 || carry2)

/-- `borrowing_sub` (bignum.hpp:46-52). -/
def borrowingSub (a b : Nat) (borrow : Bool) : Nat × Bool :=
  let v1 := (a + (W - b)) % W
  let borrow1 := decide (v1 > a)
  let v2 := (v1 + (W - borrow.toNat)) % W
  let borrow2 := decide (v2 > v1)
  (v2, borrow1 || borrow2)

/-- `carrying_mul` (bignum.hpp:62-67). -/
def carryingMul (a b carry : Nat) : Nat × Nat :=
  let v1 := (a * b + carry) % (W * W)
  (v1 % W, v1 / W % W)

/-- `bignum` (bignum.hpp:70-331). -/
structure Bignum where
  size : Nat
  base : List Nat
  deriving DecidableEq, Repr

namespace Bignum

/-- `max_blocks` (bignum.hpp:72). -/
def maxBlocks : Nat := 34

/-- The constructor from a `uint32_t` (bignum.hpp:84-86). -/
def ofU32 (v : Nat) : Bignum := ⟨1, v :: List.replicate 33 0⟩

/-- The constructor from a `uint64_t` (bignum.hpp:89-93). -/
def ofU64 (v : Nat) : Bignum :=
  ⟨if v / W % W > 0 then 2 else 1, (v % W) :: (v / W % W) :: List.replicate 32 0⟩

/-- `is_zero` (bignum.hpp:112-116). -/
def isZero (x : Bignum) : Bool := x.base.all (· == 0)

/-- Loop of `add` (bignum.hpp:141-144): `n` is `other.size_ - i`; result: the blocks from `i` on and the number of
rounds. -/
def addLoop : Nat → (a b : List Nat) → Bool → Option (List Nat × Nat)
  | n, a, b, carry =>
    if n > 0 ∨ (carry = true ∧ a ≠ []) then
      match a, b with
      | x :: a', y :: b' =>
        let (v, c) := carryingAdd x y carry
        match addLoop (n - 1) a' b' c with
        | some (r, i) => some (v :: r, i + 1)
        | none => none
      | _, _ => none
    else some (a, 0)
termination_by _ a => a.length

/-- `add` (bignum.hpp:138-150). -/
def add (x y : Bignum) : Option Bignum :=
  match addLoop y.size x.base y.base false with
  | some (r, i) => some ⟨if i > x.size then i else x.size, r⟩
  | none => none

/-- First loop of `sub` (bignum.hpp:174-177): `n` is `size_ - i`. -/
def subLoop : Nat → (a b : List Nat) → Bool → Option (List Nat)
  | 0, a, _, _ => some a
  | n + 1, x :: a, y :: b, borrow =>
    let (v, c) := borrowingSub x y borrow
    match subLoop n a b c with
    | some r => some (v :: r)
    | none => none
  | _ + 1, _, _, _ => none

/-- Second loop of `sub` (bignum.hpp:179-183): the new size. -/
def trim (base : List Nat) : Nat → Option Nat
  | 0 => some 0
  | n + 1 =>
    match base[n]? with
    | none => none
    | some d => if d ≠ 0 then some (n + 1) else trim base n

/-- `sub` (bignum.hpp:169-186). -/
def sub (x y : Bignum) : Option Bignum :=
  if x.size = 0 then some x
  else
    match subLoop x.size x.base y.base false with
    | none => none
    | some r =>
      match trim r x.size with
      | none => none
      | some n => some ⟨n, r⟩

/-- Loop of `muladd_small` (bignum.hpp:196-199): `n` is `size_ - i`. -/
def mulLoop (other : Nat) : Nat → List Nat → Nat → Option (List Nat × Nat)
  | 0, ds, carry => some (ds, carry)
  | n + 1, d :: ds, carry =>
    let (v, c) := carryingMul d other carry
    match mulLoop other n ds c with
    | some (r, c') => some (v :: r, c')
    | none => none
  | _ + 1, [], _ => none

/-- The block behind the last one takes the carry (bignum.hpp:200-203, 298-301). -/
def pushCarry (size : Nat) (base : List Nat) (carry : Nat) : Option Bignum :=
  if carry > 0 then
    if size < base.length then some ⟨size + 1, base.set size carry⟩ else none
  else some ⟨size, base⟩

/-- `muladd_small` (bignum.hpp:194-205). -/
def muladdSmall (x : Bignum) (other carry : Nat) : Option Bignum :=
  match mulLoop other x.size x.base carry with
  | none => none
  | some (r, c) => pushCarry x.size r c

/-- `mul_small` (bignum.hpp:190-192). -/
def mulSmall (x : Bignum) (other : Nat) : Option Bignum := muladdSmall x other 0

/-- `mul_pow5` (bignum.hpp:245-261); `rest_power` is a `uint32_t`. -/
def mulPow5 (x : Bignum) (k : Nat) : Option Bignum :=
  if _h : k ≥ 13 then
    match mulSmall x 1220703125 with
    | none => none
    | some x' => mulPow5 x' (k - 13)
  else if k = 0 then some x
  else mulSmall x (5 ^ k % W)
termination_by k

/-- The block moves of `mul_pow2` (bignum.hpp:281-289), done at once. -/
def shiftBlocks (x : Bignum) (digits : Nat) : Option Bignum :=
  if digits = 0 then some x
  else if (x.size = 0 ∨ x.size + digits ≤ x.base.length) ∧ digits ≤ x.base.length then
    some ⟨x.size + digits, List.replicate digits 0 ++ x.base.take x.size ++ x.base.drop (digits + x.size)⟩
  else none

/-- Loop of `mul_pow2` (bignum.hpp:293-297): `n` is `size_ - i`. -/
def shiftLoop (bits : Nat) : Nat → List Nat → Nat → Option (List Nat × Nat)
  | 0, ds, overflow => some (ds, overflow)
  | n + 1, d :: ds, overflow =>
    let res := d * 2 ^ bits % (W * W)
    match shiftLoop bits n ds (res / W % W) with
    | some (r, c') => some ((res % W + overflow) % W :: r, c')
    | none => none
  | _ + 1, [], _ => none

/-- `mul_pow2` (bignum.hpp:277-304). -/
def mulPow2 (x : Bignum) (exp : Nat) : Option Bignum :=
  match shiftBlocks x (exp / 32) with
  | none => none
  | some y =>
    if exp % 32 > 0 then
      match shiftLoop (exp % 32) y.size y.base 0 with
      | none => none
      | some (r, c) => pushCarry y.size r c
    else some y

/-- Loop of `operator<=>` (bignum.hpp:313-320). -/
def cmpLoop (a b : List Nat) : Nat → Option Ordering
  | 0 => some .eq
  | n + 1 =>
    match a[n]?, b[n]? with
    | some x, some y => if x > y then some .gt else if x < y then some .lt else cmpLoop a b n
    | _, _ => none

/-- `operator<=>` (bignum.hpp:306-322). -/
def cmp (x y : Bignum) : Option Ordering :=
  if x.size > y.size then some .gt
  else if x.size < y.size then some .lt
  else cmpLoop x.base y.base x.size

/-- `get_bit` (bignum.hpp:104-109). -/
def getBit (x : Bignum) (i : Nat) : Option Nat :=
  match x.base[i / 32]? with
  | some d => some (d >>> (i % 32) &&& 1)
  | none => none

/-- Loop of `add_small_at` (bignum.hpp:129-132): the blocks from `i` on and the number of rounds. -/
def carryLoop : List Nat → Bool → List Nat × Nat
  | d :: ds, true =>
    let (v, c) := carryingAdd d 0 true
    let (r, n) := carryLoop ds c
    (v :: r, n + 1)
  | ds, _ => (ds, 0)

/-- `add_small_at` (bignum.hpp:124-136). -/
def addSmallAt (x : Bignum) (index other : Nat) : Option Bignum :=
  match x.base.drop index with
  | [] => none
  | d :: ds =>
    let (v, c) := carryingAdd d other false
    let (r, n) := carryLoop ds c
    some ⟨index + 1 + n, x.base.take index ++ v :: r⟩

/-- `add_small` (bignum.hpp:120-122). -/
def addSmall (x : Bignum) (other : Nat) : Option Bignum := addSmallAt x 0 other

/-- Loop of `sub_small` (bignum.hpp:157-160). -/
def borrowLoop : List Nat → Bool → List Nat × Nat
  | d :: ds, true =>
    let (v, c) := borrowingSub d 0 true
    let (r, n) := borrowLoop ds c
    (v :: r, n + 1)
  | ds, _ => (ds, 0)

/-- `sub_small` (bignum.hpp:153-166). -/
def subSmall (x : Bignum) (other : Nat) : Option Bignum :=
  match x.base with
  | [] => none
  | d :: ds =>
    let (v, c) := borrowingSub d other false
    let (r, n) := borrowLoop ds c
    some ⟨if 1 + n = x.size ∧ x.size ≠ 1 then x.size - 1 else x.size, v :: r⟩

/-- `digits` (bignum.hpp:98-100). -/
def digits (x : Bignum) : Option (List Nat) := if x.size ≤ x.base.length then some (x.base.take x.size) else none

/-- Inner loop of `mul` and `mul_digits` (bignum.hpp:214-217, 232-235): `d` is the block of the shorter number, `at` is
`i + j`.  Result: the product so far and the carry. -/
def mulRow (d : Nat) : List Nat → (at_ : Nat) → (carry : Nat) → Bignum → Option (Bignum × Nat)
  | [], _, carry, prod => some (prod, carry)
  | e :: es, at_, carry, prod =>
    let (v, c) := carryingMul d e carry
    match prod.addSmallAt at_ v with
    | none => none
    | some prod' => mulRow d es (at_ + 1) c prod'

/-- Outer loop of `mul` and `mul_digits` (bignum.hpp:212-221, 230-239). -/
def mulRows (max : List Nat) : List Nat → (i : Nat) → Bignum → Option Bignum
  | [], _, prod => some prod
  | d :: ds, i, prod =>
    match mulRow d max i 0 prod with
    | none => none
    | some (prod', carry) =>
      if carry > 0 then
        match prod'.addSmallAt (i + max.length) carry with
        | none => none
        | some prod'' => mulRows max ds (i + 1) prod''
      else mulRows max ds (i + 1) prod'

/-- `mul_digits` (bignum.hpp:225-242): the new value of the number. -/
def mulDigits (x : Bignum) (other : List Nat) : Option Bignum :=
  match x.digits with
  | none => none
  | some ds => if ds.length > other.length then mulRows ds other 0 (ofU32 0) else mulRows other ds 0 (ofU32 0)

/-- `mul` (bignum.hpp:207-223): the same loops on the digits of both numbers. -/
def mul (x y : Bignum) : Option Bignum :=
  match y.digits with
  | none => none
  | some ds => mulDigits x ds

/-- Loop of `div_rem_small` (bignum.hpp:267-272), on the blocks from the highest one down: the new blocks (highest first)
and the remainder. -/
def divLoop (other : Nat) : List Nat → (borrow : Nat) → List Nat × Nat
  | [], borrow => ([], borrow)
  | d :: ds, borrow =>
    let v := (d + borrow * W) % (W * W)
    let res := v / other
    let (r, b) := divLoop other ds (v - res * other)
    (res % W :: r, b)

/-- `div_rem_small` (bignum.hpp:265-274): the new value of the number and the remainder.  Division by zero is undefined
behaviour. -/
def divRemSmall (x : Bignum) (other : Nat) : Option (Bignum × Nat) :=
  match x.digits with
  | none => none
  | some ds =>
    if other = 0 ∧ ds ≠ [] then none
    else
      let (r, b) := divLoop other ds.reverse 0
      some (⟨x.size, r.reverse ++ x.base.drop x.size⟩, b % W)

end Bignum
end Emio
