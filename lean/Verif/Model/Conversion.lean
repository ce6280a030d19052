import Verif.Base
/-
Model of include/emio/detail/conversion.hpp.

Numbers of unsigned C++ types are modelled by `Nat`; the functions below never exceed the range of their argument type
(they only divide, mask and shift), so no wrap-around has to be modelled here except in `toAbsolute`.
Pointers into the output are modelled by the text already written to their right.
-/
namespace Emio

/-- An integer type: signedness and width in bits (8, 16, 32 or 64). -/
structure IntTy where
  signed : Bool
  bits : Nat
  deriving DecidableEq, Repr

namespace IntTy
/-- `std::numeric_limits<T>::min()` (scanner.hpp:114, reader.hpp:446-460). -/
def min (t : IntTy) : Int := if t.signed then -(2 ^ (t.bits - 1) : Int) else 0
/-- `std::numeric_limits<T>::max()` (scanner.hpp:114, reader.hpp:446-460). -/
def max (t : IntTy) : Int := if t.signed then 2 ^ (t.bits - 1) - 1 else 2 ^ t.bits - 1
/-- The value is representable in the type (scanner.hpp:114). -/
def Holds (t : IntTy) (v : Int) : Prop := t.min ≤ v ∧ v ≤ t.max
/-- Whether a value is in the range of a type can be computed (scanner.hpp:114). -/
instance (t : IntTy) (v : Int) : Decidable (t.Holds v) := inferInstanceAs (Decidable (_ ∧ _))

/-- One of the eight integer types of the library's API (detail/conversion.hpp:146-158). -/
def Std (t : IntTy) : Prop := t.bits = 8 ∨ t.bits = 16 ∨ t.bits = 32 ∨ t.bits = 64
/-- Whether a type is a standard one can be computed (detail/conversion.hpp:146-158). -/
instance (t : IntTy) : Decidable t.Std := inferInstanceAs (Decidable (_ ∨ _))

/-- `upcasted_int_t<T>` (conversion.hpp:146-158): 32 bit or 64 bit type of the same signedness. -/
def upcast (t : IntTy) : IntTy := ⟨t.signed, if t.bits ≤ 32 then 32 else 64⟩
end IntTy

/-- `uint8_t` (detail/parser.hpp:88). -/
abbrev u8 : IntTy := ⟨false, 8⟩
/-- `uint16_t` (detail/conversion.hpp:146-158). -/
abbrev u16 : IntTy := ⟨false, 16⟩
/-- `uint32_t` (detail/conversion.hpp:146-158, detail/format/formatter.hpp:823-826). -/
abbrev u32 : IntTy := ⟨false, 32⟩
/-- `uint64_t` (detail/conversion.hpp:146-158, detail/format/formatter.hpp:823-826). -/
abbrev u64 : IntTy := ⟨false, 64⟩
/-- `int8_t` (detail/conversion.hpp:146-158). -/
abbrev i8 : IntTy := ⟨true, 8⟩
/-- `int16_t` (detail/conversion.hpp:146-158). -/
abbrev i16 : IntTy := ⟨true, 16⟩
/-- `int32_t` (detail/conversion.hpp:146-158, detail/format/formatter.hpp:823-826). -/
abbrev i32 : IntTy := ⟨true, 32⟩
/-- `int64_t` (detail/conversion.hpp:146-158, detail/format/formatter.hpp:823-826). -/
abbrev i64 : IntTy := ⟨true, 64⟩

/-- `isdigit` (conversion.hpp:25-27). -/
def isDigit (c : Char) : Bool := 48 ≤ c.toNat && c.toNat ≤ 57

/-- `isalpha` (conversion.hpp:21-23). -/
def isAlpha (c : Char) : Bool := (65 ≤ c.toNat && c.toNat ≤ 90) || (97 ≤ c.toNat && c.toNat ≤ 122)

/-- `is_valid_number_base` (conversion.hpp:29-31). -/
def isValidNumberBase (base : Int) : Bool := 2 ≤ base && base ≤ 36

/-- `char_to_digit` (conversion.hpp:33-49), on the numeric value of the `char` (negative for bytes ≥ 128 if `char` is
signed). -/
def charToDigitVal (c : Int) (base : Int) : Option Int :=
  if c < 48 then none
  else
    let res := if c ≥ 97 then c - 97 + 10 else if c ≥ 65 then c - 65 + 10 else c - 48
    if res < base then some res else none

/-- `char_to_digit` (conversion.hpp:33-49) for a platform with unsigned `char`; the variant for signed `char` agrees
(`charToDigit_signed`). -/
@[irreducible] def charToDigit (c : Char) (base : Nat) : Option Nat :=
  (charToDigitVal c.toNat base).map Int.toNat

/-- Numeric value of a `char` if `char` is a signed type (detail/conversion.hpp:33-49). -/
def signedCharVal (c : Char) : Int := if c.toNat ≥ 128 then (c.toNat : Int) - 256 else c.toNat

/-- `digit_to_char` (conversion.hpp:51-61). -/
def digitToChar (digit : Nat) (upper : Bool) : Char :=
  if digit ≥ 10 then
    if upper then Char.ofNat (65 + (digit - 10)) else Char.ofNat (97 + (digit - 10))
  else Char.ofNat (48 + digit)

/-- Loop of `count_digits_10` (conversion.hpp:65-86). -/
def countDigits10Loop (number count : Nat) : Nat :=
  if number < 10 then count
  else if number < 100 then count + 1
  else if number < 1000 then count + 2
  else if number < 10000 then count + 3
  else countDigits10Loop (number / 10000) (count + 4)

/-- `count_digits_10` (conversion.hpp:65-86). -/
def countDigits10 (number : Nat) : Nat := countDigits10Loop number 1

/-- `std::bit_width` (detail/conversion.hpp:98-102). -/
def bitWidth (n : Nat) : Nat := if n = 0 then 0 else Nat.log2 n + 1

/-- The generic loop `for (number /= base; number; number /= base) ++digit_cnt;` (conversion.hpp:130-134).
Only called with `base ≥ 2`; for other bases the C++ loop does not exist. -/
def countDigitsLoop (base number cnt : Nat) : Nat :=
  if _h : number = 0 ∨ base < 2 then cnt else countDigitsLoop base (number / base) (cnt + 1)
termination_by number
decreasing_by
  exact Nat.div_lt_self (by omega) (by omega)

/-- `count_digits<16>` (conversion.hpp:88-110). -/
def countDigits16 (number : Nat) : Nat := if number = 0 then 1 else (bitWidth number + 3) / 4
/-- `count_digits<8>` (conversion.hpp:88-110). -/
def countDigits8 (number : Nat) : Nat := if number = 0 then 1 else (bitWidth number + 2) / 3
/-- `count_digits<2>` (conversion.hpp:88-110). -/
def countDigits2 (number : Nat) : Nat := if number = 0 then 1 else bitWidth number

/-- `get_number_of_digits` (conversion.hpp:112-135). -/
def getNumberOfDigits (number base : Nat) : Nat :=
  if number = 0 then 1
  else if base = 10 then (if number = 0 then 1 else countDigits10 number)
  else if base = 16 then countDigits16 number
  else if base = 2 then countDigits2 number
  else if base = 8 then countDigits8 number
  else countDigitsLoop base (number / base) 1

/-- Modulus of `uint32_or_64<T>` (conversion.hpp:154-155): `numeric_limits<T>::digits <= 32`. -/
def absModulus (t : IntTy) : Nat :=
  if (if t.signed then t.bits - 1 else t.bits) ≤ 32 then 2 ^ 32 else 2 ^ 64

/-- `to_absolute` (conversion.hpp:166-178): conversion to the unsigned type, then `0 - abs` modulo its size. -/
def toAbsolute (t : IntTy) (number : Int) : Nat :=
  if !t.signed then number.toNat
  else
    let m : Int := absModulus t
    if number < 0 then ((0 - number % m) % m).toNat
    else (number % m).toNat

/-- The string literal of `digits2` (conversion.hpp:191-198). -/
def digits2Table : Str :=
  ("0001020304050607080910111213141516171819" ++
   "2021222324252627282930313233343536373839" ++
   "4041424344454647484950515253545556575859" ++
   "6061626364656667686970717273747576777879" ++
   "8081828384858687888990919293949596979899").toList

/-- The two characters `copy2(next, digits2(value))` stores (conversion.hpp:191-209). -/
def digits2 (value : Nat) : Str := (digits2Table.drop (value * 2)).take 2

/-- `write_decimal` (conversion.hpp:211-227); `right` is the text to the right of `next`. -/
def writeDecimal (n : Nat) (right : Str) : Str :=
  if n ≥ 100 then writeDecimal (n / 100) (digits2 (n % 100) ++ right)
  else if n < 10 then Char.ofNat (48 + n) :: right
  else digits2 n ++ right

/-- The digit tables of `write_uint` (conversion.hpp:232). -/
def hexTable (upper : Bool) : Str := (if upper then "0123456789ABCDEF" else "0123456789abcdef").toList

/-- One digit of `write_uint` (conversion.hpp:234-241). -/
def uintDigit (baseBits : Nat) (upper : Bool) (digit : Nat) : Char :=
  if baseBits < 4 then Char.ofNat (48 + digit) else (hexTable upper).getD digit '?'

/-- `write_uint<BaseBits>` (conversion.hpp:229-244), `BaseBits` being 1, 3 or 4 (a shift by 0 does not occur). -/
def writeUint (baseBits : Nat) (n : Nat) (upper : Bool) (right : Str) : Str :=
  let digit := n &&& ((1 <<< baseBits) - 1)
  let right' := uintDigit baseBits upper digit :: right
  if _h : n >>> baseBits ≠ 0 ∧ baseBits ≠ 0 then writeUint baseBits (n >>> baseBits) upper right' else right'
termination_by n
decreasing_by
  rw [Nat.shiftRight_eq_div_pow] at *
  refine Nat.div_lt_self ?_ (Nat.one_lt_two_pow _h.2)
  rcases Nat.eq_zero_or_pos n with h0 | h0
  · simp [h0] at _h
  · exact h0

/-- Generic loop of `write_number` (conversion.hpp:265-270). -/
def writeNumberLoop (n base : Nat) (upper : Bool) (right : Str) : Str :=
  if _h : n = 0 ∨ base < 2 then right
  else writeNumberLoop (n / base) base upper (digitToChar (n % base) upper :: right)
termination_by n
decreasing_by
  exact Nat.div_lt_self (by omega) (by omega)

/-- `write_number` (conversion.hpp:246-271): the characters stored to the left of `next`, followed by what is to its
right. -/
def writeNumber (n base : Nat) (upper : Bool) (right : Str) : Str :=
  if base = 10 then writeDecimal n right
  else if base = 16 then writeUint 4 n upper right
  else if base = 2 then writeUint 1 n false right
  else if base = 8 then writeUint 3 n false right
  else if n = 0 then '0' :: right
  else writeNumberLoop n base upper right

end Emio
