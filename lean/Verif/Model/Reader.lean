import Verif.Model.Conversion
/-
Model of include/emio/reader.hpp.

A reader is its character sequence `src` (the range `[begin_, end_)`) and the offset `pos` of `it_`.
Dereferencing `it_` outside the sequence is undefined behaviour (`Bad.ub`).
Simplification: `size_t` differences such as `end_ - it_` are natural number differences (they are non-negative as long
as `pos ≤ src.length`, which is proved to be invariant).
-/
namespace Emio

/-- `emio::reader` (reader.hpp:40-383). -/
structure Reader where
  src : Str
  pos : Nat
  deriving DecidableEq, Repr

namespace Reader

/-- `reader{sv}` (reader.hpp:72). -/
def ofStr (s : Str) : Reader := ⟨s, 0⟩

/-- `view_remaining` (reader.hpp:102-104). -/
def rest (r : Reader) : Str := r.src.drop r.pos

/-- `cnt_remaining` (reader.hpp:94-96). -/
def cntRemaining (r : Reader) : Nat := r.src.length - r.pos

/-- `eof` (reader.hpp:86-88). -/
def eof (r : Reader) : Bool := r.pos == r.src.length

/-- `pop` (reader.hpp:121-127). -/
def pop (r : Reader) (cnt : Nat) : Reader :=
  if r.src.length - r.pos ≥ cnt then { r with pos := r.pos + cnt } else { r with pos := r.src.length }

/-- `unpop` (reader.hpp:134-140). -/
def unpop (r : Reader) (cnt : Nat) : Reader :=
  if r.pos ≥ cnt then { r with pos := r.pos - cnt } else { r with pos := 0 }

/-- `read_remaining` (reader.hpp:110-114). -/
def readRemaining : M Reader Str := fun r => .ok { r with pos := r.src.length } r.rest

/-- `peek` (reader.hpp:162-167). -/
def peek : M Reader Char := fun r =>
  if r.pos ≠ r.src.length then
    match r.src[r.pos]? with
    | some c => .ok r c
    | none => .bad .ub
  else .err r .eof

/-- `read_char` (reader.hpp:173-178). -/
def readChar : M Reader Char := fun r =>
  if r.pos ≠ r.src.length then
    match r.src[r.pos]? with
    | some c => .ok { r with pos := r.pos + 1 } c
    | none => .bad .ub
  else .err r .eof

/-- `read_n_chars` (reader.hpp:185-192). -/
def readNChars (n : Nat) : M Reader Str := fun r =>
  if r.src.length - r.pos ≥ n then .ok { r with pos := r.pos + n } (r.rest.take n)
  else .err r .eof

/-- Size of the address space (64 bit pointers). -/
def addrSpace : Nat := 2 ^ 64

/-- `subreader` (reader.hpp:149-156).  `addr` is the address of `begin_`; pointer arithmetic is modulo 2^64.
A window that does not lie inside the sequence is undefined behaviour. -/
def subreader (addr p len : Nat) : M Reader Reader := fun r =>
  let nextIt := (addr + r.pos + p) % addrSpace
  let endA := addr + r.src.length
  if nextIt > endA then .err r .eof
  else
    let rlen := Nat.min len (endA - nextIt)
    if nextIt < addr then .bad .ub
    else .ok r (ofStr ((r.src.drop (nextIt - addr)).take rlen))

/-- `detail::parse_sign` (reader.hpp:395-405). -/
def parseSign : M Reader Bool := do
  let c ← peek
  if c = '+' then
    M.modify (·.pop 1)
    return false
  else if c = '-' then
    M.modify (·.pop 1)
    return true
  else
    return false

/-- The result of an arithmetic operation in type `t`: signed overflow is undefined, unsigned arithmetic wraps
(reader.hpp:446-460). -/
def arith (t : IntTy) (v : Int) : Option Int :=
  if t.signed then (if t.Holds v then some v else none) else some (v % (2 ^ t.bits : Nat))

/-- The overflow test of the loops (reader.hpp:447 for negative numbers, reader.hpp:458 otherwise). -/
def wentBack (neg : Bool) (mo value : Int) : Bool := if neg then mo > value else mo < value

/-- Head of the loops: add (subtract) a digit and test for overflow (reader.hpp:446-449, 457-460). -/
def addDigit (t : IntTy) (neg : Bool) (value mo : Int) (digit : Nat) : Run Unit Int :=
  match arith t (if neg then mo - digit else mo + digit) with
  | none => .bad .ub
  | some mo' => if wentBack neg mo' value then .err () .outOfRange else .ok () mo'

/-- `has_next_digit` (reader.hpp:427-441) for the next character `c`: `value = maybe_overflowed_value`, and if `c` is a
digit, `maybe_overflowed_value = value * base`.  `none`: no digit; otherwise the new pair of values and the digit, or
undefined behaviour (signed overflow of the product). -/
def nextDigit (t : IntTy) (base : Nat) (c : Char) (mo : Int) : Option (Option (Int × Int × Nat)) :=
  match charToDigit c base with
  | none => none
  | some d => some ((arith t (mo * base)).map fun m => (mo, m, d))

/-- The loops of `detail::parse_int` (reader.hpp:425-464), starting at the addition of a digit.
`rest`/`pos` are the characters behind the digit and the position of the first of them. -/
def parseLoop (t : IntTy) (base : Nat) (neg : Bool) :
    (rest : Str) → (pos : Nat) → (value mo : Int) → (digit : Nat) → Run Nat Int
  | rest, pos, value, mo, digit =>
    match addDigit t neg value mo digit with
    | .bad b => .bad b
    | .err _ e => .err pos e
    | .ok _ mo' =>
      match rest with
      | [] => .ok pos mo'
      | c :: cs =>
        match nextDigit t base c mo' with
        | none => .ok pos mo'
        | some none => .bad .ub
        | some (some (v, m, d)) => parseLoop t base neg cs (pos + 1) v m d

/-- The digit loops of `detail::parse_int` (reader.hpp:425-464) on a reader, after the first digit `d` has been read. -/
def parseDigits (t : IntTy) (base : Nat) (neg : Bool) (d : Nat) : M Reader Int := fun r =>
  match parseLoop t base neg r.rest r.pos 0 0 d with
  | .ok p v => .ok { r with pos := p } v
  | .err p e => .err { r with pos := p } e
  | .bad b => .bad b

/-- `detail::parse_int<T>` (reader.hpp:407-465), `T` being a 32 or 64 bit type. -/
def parseIntRaw (t : IntTy) (base : Int) (neg : Bool) : M Reader Int := do
  if !isValidNumberBase base then M.throw .invalidArgument
  else
    let c ← readChar
    match charToDigit c base.toNat with
    | none => M.throw .invalidData
    | some d =>
      if !t.signed && neg then M.throw .outOfRange
      else parseDigits t base.toNat neg d

/-- `parse_sign_and_int<T>` (reader.hpp:342-346). -/
def parseSignAndInt (t : IntTy) (base : Int) : M Reader Int := do
  let neg ← parseSign
  parseIntRaw t base neg

/-- `reader::parse_int<T>` (reader.hpp:201-225). -/
def parseInt (t : IntTy) (base : Int) : M Reader Int := fun r =>
  match parseSignAndInt t.upcast base r with
  | .err _ e => .err r e
  | .bad b => .bad b
  | .ok r' v =>
    if t.upcast = t then .ok r' v
    else if v < t.min ∨ v > t.max then .err r .outOfRange
    else .ok r' v

/-- `read_until_options` (reader.hpp:230-234). -/
structure UntilOpts where
  includeDelimiter : Bool := false
  keepDelimiter : Bool := false
  ignoreEof : Bool := false
  deriving DecidableEq, Repr

/-- `read_until_match` (reader.hpp:357-378); `mtch` is the offset of `match`. -/
def readUntilMatch (mtch : Nat) (o : UntilOpts) (delimiterSize : Nat) : M Reader Str := fun r =>
  if r.pos = r.src.length then .err r .eof
  else if mtch = r.src.length then
    if !o.ignoreEof then .ok { r with pos := r.src.length } r.rest
    else .err r .invalidData
  else
    let pos' := if !o.keepDelimiter then mtch + delimiterSize else mtch
    let mtch' := if o.includeDelimiter then mtch + delimiterSize else mtch
    if pos' > r.src.length ∨ mtch' > r.src.length then .bad .ub
    else .ok { r with pos := pos' } (r.rest.take (mtch' - r.pos))

/-- `read_until_pos` (reader.hpp:348-355); `none` is `npos`. -/
def readUntilPos (p : Option Nat) (o : UntilOpts) (delimiterSize : Nat) : M Reader Str := fun r =>
  let mtch := match p with
    | none => r.src.length
    | some i => r.pos + i
  readUntilMatch mtch o delimiterSize r

/-- `std::find_if` / `find_first_of` / `find_first_not_of`: index of the first character satisfying `p`
(reader.hpp:245, 268, 280, 295). -/
def findIf (p : Char → Bool) : Str → Option Nat
  | [] => none
  | c :: cs => if p c then some 0 else (findIf p cs).map (· + 1)

/-- `std::string_view::find`: index of the first occurrence of `needle` (reader.hpp:257). -/
def findStr (needle : Str) : Str → Option Nat
  | [] => if needle.isEmpty then some 0 else none
  | c :: cs => if needle.isPrefixOf (c :: cs) then some 0 else (findStr needle cs).map (· + 1)

/-- `read_until_char` (reader.hpp:243-246). -/
def readUntilChar (d : Char) (o : UntilOpts) : M Reader Str := fun r =>
  readUntilPos (findIf (· == d) r.rest) o 1 r

/-- `read_until_str` (reader.hpp:255-258). -/
def readUntilStr (d : Str) (o : UntilOpts) : M Reader Str := fun r =>
  readUntilPos (findStr d r.rest) o d.length r

/-- `read_until_any_of` (reader.hpp:266-269). -/
def readUntilAnyOf (g : Str) (o : UntilOpts) : M Reader Str := fun r =>
  readUntilPos (findIf (fun c => g.contains c) r.rest) o 1 r

/-- `read_until_none_of` (reader.hpp:278-281). -/
def readUntilNoneOf (g : Str) (o : UntilOpts) : M Reader Str := fun r =>
  readUntilPos (findIf (fun c => !g.contains c) r.rest) o 1 r

/-- `read_until` with a predicate (reader.hpp:290-296). -/
def readUntilPred (p : Char → Bool) (o : UntilOpts) : M Reader Str := fun r =>
  readUntilPos (findIf p r.rest) o 1 r

/-- `read_if_match_char` (reader.hpp:303-312). -/
def readIfMatchChar (c : Char) : M Reader Char := fun r =>
  if r.pos ≠ r.src.length then
    match r.src[r.pos]? with
    | some d => if d = c then .ok { r with pos := r.pos + 1 } c else .err r .invalidData
    | none => .bad .ub
  else .err r .eof

/-- `read_if_match_str` (reader.hpp:319-330). -/
def readIfMatchStr (s : Str) : M Reader Str := fun r =>
  if r.src.length - r.pos < s.length then .err r .eof
  else if r.rest.take s.length = s then .ok { r with pos := r.pos + s.length } s
  else .err r .invalidData

end Reader
end Emio
