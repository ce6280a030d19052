import Verif.Model.Bignum
import Verif.Model.Bitset
import Verif.Model.Conversion

/-!
# The unit tests of the library, evaluated in the model: test_bignum.cpp, test_bitset.cpp, test_conversion.cpp

The checks of these files in /repo/test/unit_test/detail with the results the tests expect.  These are no proofs of
properties: they show that the model computes what the authors of the library expect of the code.
-/

namespace Emio.Conformance.Numbers

/-- `std::numeric_limits<uint32_t>::max()` (test_bignum.cpp:16). -/
abbrev max32 : Nat := 4294967295

/-- `bignum::from(size, blocks)` (test_bignum.cpp:67): the other blocks are zero. -/
def from' (size : Nat) (blocks : List Nat) : Bignum := ⟨size, blocks ++ List.replicate (34 - blocks.length) 0⟩

/-- test_bignum.cpp:18-31. -/
example : List.all [
    carryingAdd 0 0 false == (0, false),
    carryingAdd 0 0 true == (1, false),
    carryingAdd 1 0 false == (1, false),
    carryingAdd 1 1 false == (2, false),
    carryingAdd 1 1 true == (3, false),
    carryingAdd (max32) 1 false == (0, true),
    carryingAdd (max32) 1 true == (1, true),
    carryingAdd 1 (max32) false == (0, true),
    carryingAdd 1 (max32) true == (1, true),
    carryingAdd (max32) (max32) false == (max32 - 1, true),
    carryingAdd (max32) (max32) true == (max32, true)] id = true := by decide +kernel

/-- test_bignum.cpp:33-46. -/
example : List.all [
    borrowingSub 0 0 false == (0, false),
    borrowingSub 0 0 true == (max32, true),
    borrowingSub 1 0 false == (1, false),
    borrowingSub 1 1 false == (0, false),
    borrowingSub 1 1 true == (max32, true),
    borrowingSub (max32) 1 false == (max32 - 1, false),
    borrowingSub (max32) 1 true == (max32 - 2, false),
    borrowingSub 1 (max32) false == (2, true),
    borrowingSub 1 (max32) true == (1, true),
    borrowingSub (max32) (max32) false == (0, false),
    borrowingSub (max32) (max32) true == (max32, true)] id = true := by decide +kernel

/-- test_bignum.cpp:48-59. -/
example : List.all [
    carryingMul 0 0 0 == (0, 0),
    carryingMul 0 0 4 == (4, 0),
    carryingMul 2 0 0 == (0, 0),
    carryingMul 2 3 0 == (6, 0),
    carryingMul 2 3 4 == (10, 0),
    carryingMul (max32) (max32) 0 == (1, max32 - 1),
    carryingMul (max32) (max32 - 1) 0 == (2, max32 - 2),
    carryingMul (max32) (max32) 9 == (10, max32 - 1),
    carryingMul (max32) (max32) (max32) == (0, max32)] id = true := by decide +kernel

/-- The two bignums are equal (`operator==`, test_bignum.cpp:67). -/
def same (x : Option Bignum) (y : Bignum) : Bool := (x.bind (·.cmp y)) == some .eq

/-- test_bignum.cpp:64-80. -/
example : Bignum.ofU32 15 = from' 1 [15] ∧ Bignum.ofU64 15 = from' 1 [15] ∧
    Bignum.ofU64 592359492949 = from' 2 [3948973397, 137] := by decide +kernel

/-- test_bignum.cpp:82-92. -/
example : ∀ i < 64, (Bignum.ofU64 0x8004000044000008).getBit i = some (if i ∈ [63, 50, 30, 26, 3] then 1 else 0) := by
  decide +kernel

/-- test_bignum.cpp:94-98. -/
example : (Bignum.ofU32 0).isZero = true ∧ (Bignum.ofU32 129).isZero = false ∧
    (Bignum.ofU64 592359492949).isZero = false := by decide +kernel

/-- test_bignum.cpp:100-113. -/
example : (Bignum.ofU32 (max32 - 1)).addSmall 1 = some (from' 1 [max32]) ∧
    (from' 1 [max32]).addSmall 3 = some (from' 2 [2, 1]) ∧
    (Bignum.ofU32 (max32 - 1)).addSmall 4 = some (from' 2 [2, 1]) := by decide +kernel

/-- test_bignum.cpp:115-130. -/
example : same ((Bignum.ofU64 0x1598468598486213).add (Bignum.ofU64 0x400200410040010)) (Bignum.ofU64 0x19986689a84c6223) ∧
    same ((Bignum.ofU64 0x400200410040010).add (Bignum.ofU64 0x954410040010)) (Bignum.ofU64 0x400b54820080020) ∧
    same ((Bignum.ofU64 0x1598468598486213).add (Bignum.ofU64 0x8918918)) (Bignum.ofU64 0x15984685a0d9eb2b) := by
  decide +kernel

/-- test_bignum.cpp:132-151. -/
example : (from' 2 [2, 1]).subSmall 1 = some (from' 2 [1, 1]) ∧ (from' 2 [1, 1]).subSmall 1 = some (from' 2 [0, 1]) ∧
    (from' 2 [0, 1]).subSmall 3 = some (from' 1 [max32 - 2]) ∧ (from' 2 [2, 1]).subSmall 5 = some (from' 1 [max32 - 2]) ∧
    same ((from' 1 [max32 - 2]).subSmall (max32 - 2)) (from' 1 [0]) := by decide +kernel

/-- test_bignum.cpp:153-181. -/
example : same ((from' 3 [4, 1, 2]).sub (from' 3 [4, 1, 2])) (from' 0 []) ∧
    same ((from' 3 [4, 1, 2]).sub (from' 3 [2, 1, 2])) (from' 1 [2]) ∧
    same ((from' 1 [2]).sub (from' 1 [2])) (from' 0 [0]) ∧
    same ((from' 3 [4, 1, 2]).sub (from' 2 [4, 1])) (from' 3 [0, 0, 2]) ∧
    same ((from' 3 [0, 0, 2]).sub (from' 2 [4, 1])) (from' 3 [max32 - 3, max32 - 1, 1]) ∧
    same ((from' 3 [max32 - 3, max32 - 1, 1]).sub (from' 1 [2])) (from' 3 [max32 - 5, max32 - 1, 1]) ∧
    same ((from' 3 [0, 0, 2]).sub (from' 1 [2])) (from' 3 [max32 - 1, max32, 1]) := by decide +kernel

/-- test_bignum.cpp:183-194. -/
example : (from' 3 [4, 1, 2]).mulSmall 2 = some (from' 3 [8, 2, 4]) ∧
    (from' 3 [8, 2, 4]).mulSmall 3 = some (from' 3 [24, 6, 12]) ∧
    (from' 3 [24, 6, 12]).mulSmall 360000000 = some (from' 4 [50065408, 2160000002, 25032704, 1]) ∧
    (from' 4 [50065408, 2160000002, 25032704, 1]).mulSmall 0 = some (from' 4 [0, 0, 0, 0]) ∧
    (from' 3 [4, 1, 5]).muladdSmall 1860000000 15 = some (from' 4 [3145032719, 1860000001, 710065408, 2]) := by
  decide +kernel

/-- test_bignum.cpp:196-208. -/
example : (from' 2 [117327783, 607]).mul (from' 2 [152131585, 547]) = some (from' 3 [280407975, 1907502595, 332065]) ∧
    (from' 3 [959858, 1547, 499669885]).mul (from' 6 [18959849, 65907, 594953, 9985999, 5499, 598879596]) =
      some (from' 9 [986308290, 2397938630, 2743294157, 1925473916, 3187470779, 4197912536, 1955690142, 2089129235,
        69672730]) := by decide +kernel

/-- test_bignum.cpp:210-224. -/
example : (from' 1 [2]).mulPow5 5 = some (from' 1 [6250]) ∧
    (from' 2 [1898, 125]).mulPow5 13 = some (from' 3 [1907158706, 2264035804, 35]) ∧
    (from' 2 [79581, 498859848]).mulPow5 57 =
      some (from' 7 [2630842737, 672537777, 2761821040, 1492594830, 2410358682, 1582604142, 2]) := by decide +kernel

/-- test_bignum.cpp:226-257. -/
example : (Bignum.ofU64 0x1598468598486213).divRemSmall 0x44F2E41D = some (from' 2 [0x502DEFA2, 0], 0xA83F4B9) ∧
    (Bignum.ofU64 0x400200410040010).divRemSmall 0x56489623 = some (from' 2 [0xBDE8A50, 0], 0x450C3720) ∧
    (Bignum.ofU64 0x1895948989562198).divRemSmall 7 = some (from' 2 [0x3830E03A, 0x3831538], 2) ∧
    (Bignum.ofU64 0x1895948989562198).divRemSmall 1 = some (Bignum.ofU64 0x1895948989562198, 0) ∧
    (Bignum.ofU32 0x240010).divRemSmall 0x1548 = some (from' 1 [0x1B1], 0x148) ∧
    (Bignum.ofU32 0x240010).divRemSmall 0x240020 = some (from' 1 [0], 0x240010) := by decide +kernel

/-- test_bignum.cpp:259-268. -/
example : (from' 3 [1, 3, 2]).mulPow2 1 = some (from' 3 [2, 6, 4]) ∧
    (from' 3 [2, 6, 4]).mulPow2 9 = some (from' 3 [0x400, 0xC00, 0x800]) ∧
    (from' 3 [0x400, 0xC00, 0x800]).mulPow2 32 = some (from' 4 [0, 0x400, 0xC00, 0x800]) ∧
    (from' 4 [0, 0x400, 0xC00, 0x800]).mulPow2 67 = some (from' 6 [0, 0, 0, 0x2000, 0x6000, 0x4000]) ∧
    (from' 6 [0, 0, 0, 0x2000, 0x6000, 0x4000]).mulPow2 19 = some (from' 7 [0, 0, 0, 0, 1, 3, 2]) := by decide +kernel

/-- test_bignum.cpp:270-325. -/
example : (from' 3 [5, 1, 3]).cmp (from' 3 [5, 1, 3]) = some .eq ∧
    (from' 3 [5, 1, 3]).cmp (from' 2 [1, 3]) = some .gt ∧ (from' 2 [1, 3]).cmp (from' 3 [5, 1, 3]) = some .lt ∧
    (from' 3 [5, 1, 3]).cmp (from' 2 [4, 1, 3]) = some .gt ∧ (from' 2 [4, 1, 3]).cmp (from' 3 [5, 1, 3]) = some .lt := by
  decide +kernel

/-- test_conversion.cpp:17-50: every base with every digit and letter. -/
example : ∀ base < 37, 2 ≤ base →
    (∀ v < 10, charToDigit (Char.ofNat (48 + v)) base = if v < base then some v else none) ∧
    (∀ v < 26, charToDigit (Char.ofNat (65 + v)) base = if v + 10 < base then some (v + 10) else none) ∧
    (∀ v < 26, charToDigit (Char.ofNat (97 + v)) base = if v + 10 < base then some (v + 10) else none) := by
  decide +kernel

/-- test_conversion.cpp:51-87. -/
example : ([('\x09', 2), ('2', 2), ('\x01', 2), ('8', 8), ('\x10', 10), ('/', 10), (':', 10), ('A', 10), ('a', 10),
      ('G', 16), ('g', 16), ('W', 32), ('w', 32), ('[', 36), ('{', 36), ('\x80', 2), ('\x7f', 2), ('\x80', 36),
      ('\x7f', 36)].all fun x => charToDigit x.1 x.2 == none) = true ∧
    ([('0', 2, 0), ('1', 2, 1), ('0', 8, 0), ('7', 8, 7), ('9', 10, 9), ('F', 16, 15), ('f', 16, 15), ('V', 32, 31),
      ('v', 32, 31), ('Z', 36, 35), ('z', 36, 35)].all fun x => charToDigit x.1 x.2.1 == some x.2.2) = true := by
  decide +kernel

/-- A bitset of `bits` bits with the first `n` of them set. -/
def firstSet (bits n : Nat) : Option Bitset := (List.range n).foldlM (fun b i => b.set i) (Bitset.new bits)

/-- test_bitset.cpp:14-32. -/
example : (Bitset.new 0).all ∧ (Bitset.new 0).allFirst 0 ∧ (Bitset.new 0).allFirst 100 = false ∧
    (Bitset.new 1).all = false ∧ (Bitset.new 1).allFirst 1 = false ∧ (Bitset.new 1).allFirst 2 = false ∧
    (firstSet 1 1).map (fun b => (b.all, b.allFirst 1, b.allFirst 2)) = some (true, true, false) := by decide +kernel

/-- test_bitset.cpp:33-144: nothing, all bits but the last, and all bits set. -/
example : ([8, 13, 64, 123, 256, 74].all fun n => !(Bitset.new n).all &&
    (firstSet n (n - 1)).map (fun b => (b.all, b.allFirst (n - 1), b.allFirst n)) == some (false, true, false) &&
    (firstSet n n).map (fun b => (b.all, b.allFirst n)) == some (true, true)) = true ∧
    (firstSet 123 55).map (fun b => (b.all, b.allFirst 55, b.allFirst 56)) = some (false, true, false) := by
  decide +kernel

end Emio.Conformance.Numbers
