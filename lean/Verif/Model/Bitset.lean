import Verif.Base
/-
Model of include/emio/detail/bitset.hpp for 64-bit words (`size_t`).
-/
namespace Emio

/-- `bitset<Bits>` (bitset.hpp:20-107): the words. -/
structure Bitset where
  bits : Nat
  words : List Nat
  deriving DecidableEq, Repr

namespace Bitset

/-- `~word_t{0}` (detail/bitset.hpp:37, 61, 101). -/
def allOnes : Nat := 2 ^ 64 - 1

/-- `number_of_words` (bitset.hpp:25). -/
def numberOfWords (bits : Nat) : Nat := bits / 64 + (if bits % 64 = 0 then 0 else 1)

/-- A new bitset (bitset.hpp:107). -/
def new (bits : Nat) : Bitset := ⟨bits, List.replicate (numberOfWords bits) 0⟩

/-- `get_high_word_mask` (bitset.hpp:98-104). -/
def highWordMask (bits : Nat) : Nat :=
  let mask := (1 <<< (bits % 64) - 1) % 2 ^ 64
  if mask = 0 then allOnes else mask

/-- `all` (bitset.hpp:32-44). -/
def all (b : Bitset) : Bool :=
  if b.bits = 0 then true
  else
    (List.range (numberOfWords b.bits - 1)).all (fun i => b.words.getD i 0 == allOnes) &&
      b.words.getD (numberOfWords b.bits - 1) 0 == highWordMask b.bits

/-- Last loop of `all_first` (bitset.hpp:66-71). -/
def lowBits : Nat → Nat → Bool
  | _, 0 => true
  | word, n + 1 => if word &&& 1 ≠ 1 then false else lowBits (word >>> 1) n

/-- Loops of `all_first` (bitset.hpp:58-72): `ws` are the words from index `i` on; there is always a word for the
remaining bits. -/
def allFirstLoop : List Nat → Nat → Bool
  | [], n => n == 0
  | w :: ws, n => if n > 64 then (if w ≠ allOnes then false else allFirstLoop ws (n - 64)) else lowBits w n

/-- `all_first` (bitset.hpp:51-74). -/
def allFirst (b : Bitset) (n : Nat) : Bool :=
  if b.bits = 0 then n == 0
  else if n > b.bits then false
  else allFirstLoop b.words n

/-- `set` (bitset.hpp:88-95); nothing stands for `std::terminate()`. -/
def set (b : Bitset) (pos : Nat) : Option Bitset :=
  if pos ≥ b.bits then none
  else some { b with words := b.words.modify (pos / 64) (· ||| (1 <<< (pos % 64)) % 2 ^ 64) }

end Bitset
end Emio
