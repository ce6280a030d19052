import Verif.Model.Buffer
import Verif.Model.Conversion
/-
Model of include/emio/writer.hpp and include/emio/detail/utf.hpp, over any buffer of Verif/Model/Buffer.lean.

Simplification: the characters a function stores into one write area are stored at once, before the next area is
requested or the function returns.
-/
namespace Emio
open BufferImpl

section
variable {σ : Type} [BufferImpl σ]

/-- Store characters at the beginning of a write area (writer.hpp:41-148). -/
def putArea (a : Area) (d : Str) : M σ Unit := fun s =>
  match store s a.off d with
  | some s' => .ok s' ()
  | none => .bad .ub

/-- `writer::write_char` (writer.hpp:41-45). -/
def writeChar (c : Char) : M σ Unit := do
  let a ← getWriteAreaOf 1
  putArea a [c]

/-- `writer::write_char_n` (writer.hpp:53-62).  A zero-sized area would repeat the loop for ever, an area larger than
requested would make `remaining_size` wrap; no buffer hands out such areas. -/
def writeCharN (c : Char) (n : Nat) : M σ Unit := fun s =>
  if n = 0 then .ok s ()
  else
    match getWriteAreaOfMax n s with
    | .ok s' a =>
      if a.len = 0 then .bad .diverge
      else if a.len > n then .bad .ub
      else
        match store s' a.off (List.replicate a.len c) with
        | none => .bad .ub
        | some s'' => writeCharN c (n - a.len) s''
    | .err s' e => .err s' e
    | .bad b => .bad b
termination_by n
decreasing_by omega

/-- `writer::write_str` (writer.hpp:79-90).  See `writeCharN` for the impossible area sizes. -/
def writeStr (sv : Str) : M σ Unit := fun s =>
  if sv.length = 0 then .ok s ()
  else
    match getWriteAreaOfMax sv.length s with
    | .ok s' a =>
      if a.len = 0 then .bad .diverge
      else if a.len > sv.length then .bad .ub
      else
        match store s' a.off (sv.take a.len) with
        | none => .bad .ub
        | some s'' => writeStr (sv.drop a.len) s''
    | .err s' e => .err s' e
    | .bad b => .bad b
termination_by sv.length
decreasing_by simp only [List.length_drop]; omega

/-- A write area of `n` characters of which each one is set: `text` is what it holds in the end.
Simplification: a function that does not set exactly the requested characters is undefined behaviour in the model
(writer.hpp:41-148). -/
def writeArea (n : Nat) (text : Str) : M σ Unit := do
  let a ← getWriteAreaOf n
  if text.length = n then putArea a text else M.bad .ub

/-- `writer::write_int` (writer.hpp:113-121, 130-148). -/
def writeInt (t : IntTy) (n : Int) (base : Int) (upper : Bool) : M σ Unit :=
  if !isValidNumberBase base then M.throw .invalidArgument
  else
    let abs := toAbsolute t.upcast n
    let negative := t.signed && decide (n < 0)
    let digits := getNumberOfDigits abs base.toNat + (if negative then 1 else 0)
    writeArea digits ((if negative then ['-'] else []) ++ writeNumber abs base.toNat upper [])

end

/-! ### utf.hpp -/

/-- `needs_escape(static_cast<uint32_t>(c))` (utf.hpp:20-22).  A negative `char` becomes a large number, so bytes ≥ 128
need an escape whether `char` is signed or not. -/
def needsEscape (c : Char) : Bool :=
  c.toNat < 0x20 || c.toNat ≥ 0x7f || c == '\'' || c == '"' || c == '\\'

/-- `count_size_when_escaped` (utf.hpp:24-36). -/
def countSizeWhenEscaped : Str → Nat
  | [] => 0
  | c :: cs =>
    (if !needsEscape c then 1
     else if c == '\n' || c == '\r' || c == '\t' || c == '\\' || c == '\'' || c == '"' then 2
     else 4) + countSizeWhenEscaped cs

/-- `write_escaped_helper::write_escaped(c, out)` (utf.hpp:82-116): what follows the backslash. -/
def escapeTail (c : Char) : Str :=
  if c == '\n' then ['n']
  else if c == '\r' then ['r']
  else if c == '\t' then ['t']
  else if c == '\\' then ['\\']
  else if c == '\'' then ['\'']
  else if c == '"' then ['"']
  else
    let abs := c.toNat % 256
    'x' :: (List.replicate (2 - countDigits16 abs) '0' ++ writeNumber abs 16 false [])

/-- Loop of `write_escaped_helper::write_escaped` (utf.hpp:57-78): remaining source, remainder and space in the area.
Result: what was stored, and the new source and remainder. -/
def escapeLoop : (src rem : Str) → (space : Nat) → Str × Str × Str
  | [], rem, _ => ([], [], rem)
  | c :: cs, rem, 0 => ([], c :: cs, rem)
  | c :: cs, rem, space + 1 =>
    if !needsEscape c then
      let r := escapeLoop cs rem space
      (c :: r.1, r.2)
    else if space ≥ 3 then
      let r := escapeLoop cs rem (space - (escapeTail c).length)
      ('\\' :: escapeTail c ++ r.1, r.2)
    else
      let k := min space (escapeTail c).length
      let r := escapeLoop cs ((escapeTail c).drop k) (space - k)
      ('\\' :: (escapeTail c).take k ++ r.1, r.2)

/-- `write_escaped_helper::write_escaped(area)` (utf.hpp:45-79). -/
def escapeHelper (src rem : Str) (space : Nat) : Str × Str × Str :=
  let k := min space rem.length
  let r := escapeLoop src (rem.drop k) (space - k)
  (rem.take k ++ r.1, r.2)

section
variable {σ : Type} [BufferImpl σ]

/-- Loop and end of `write_str_escaped` (utf.hpp:134-148).  `pre` is what was stored at the beginning of the area before
(the start quote in the first round).  More characters than announced (`escaped_size` would wrap) and rounds without
progress (an endless loop) do not occur. -/
def escapeRounds (quote : Char) (pre : Str) (size : Nat) (src rem : Str) (area : Area) : M σ Unit := fun s =>
  let r := escapeHelper src rem (area.len - pre.length)
  if r.1.length > size then .bad .ub
  else if size - r.1.length = 0 then
    if area.len - pre.length - r.1.length = 0 then
      match putArea area (pre ++ r.1) s with
      | .ok s' _ =>
        match getWriteAreaOfMax 1 s' with
        | .ok s'' a => if a.len = 0 then .bad .ub else putArea a [quote] s''
        | .err s'' e => .err s'' e
        | .bad b => .bad b
      | .err s' e => .err s' e
      | .bad b => .bad b
    else putArea area (pre ++ r.1 ++ [quote]) s
  else if r.1.length = 0 ∧ pre.length = 0 then .bad .diverge
  else
    match putArea area (pre ++ r.1) s with
    | .ok s' _ =>
      match getWriteAreaOfMax (size - r.1.length + 1) s' with
      | .ok s'' a => escapeRounds quote [] (size - r.1.length) r.2.1 r.2.2 a s''
      | .err s'' e => .err s'' e
      | .bad b => .bad b
    | .err s' e => .err s' e
    | .bad b => .bad b
termination_by size + pre.length
decreasing_by
  have hr : r.1.length = (escapeHelper src rem (area.len - pre.length)).1.length := rfl
  simp only [List.length_nil]
  omega

/-- `detail::write_str_escaped` (utf.hpp:125-149). -/
def writeEscaped (quote : Char) (sv : Str) (escapedSize : Nat) : M σ Unit := fun s =>
  match getWriteAreaOfMax (escapedSize + 2) s with
  | .ok s' a => if a.len = 0 then .bad .ub else escapeRounds quote [quote] escapedSize sv [] a s'
  | .err s' e => .err s' e
  | .bad b => .bad b

/-- `writer::write_str_escaped` (writer.hpp:97-99). -/
def writeStrEscaped (sv : Str) : M σ Unit := writeEscaped '"' sv (countSizeWhenEscaped sv)

/-- `writer::write_char_escaped` (writer.hpp:69-72). -/
def writeCharEscaped (c : Char) : M σ Unit := writeEscaped '\'' [c] (countSizeWhenEscaped [c])

end

/-! ### Traces of writer calls -/

/-- A call of a writer function; formatters are modelled as producing lists of these (writer.hpp:41-148). -/
inductive WOp
  | char (c : Char)
  | charN (c : Char) (n : Nat)
  | str (s : Str)
  /-- A call of `get_write_area_of(n)`; the area is then filled with `text`. -/
  | area (n : Nat) (text : Str)
  | int (t : IntTy) (n : Int) (base : Int) (upper : Bool)
  | strEscaped (s : Str)
  | charEscaped (c : Char)
  deriving DecidableEq, Repr

section
variable {σ : Type} [BufferImpl σ]

/-- Perform one call (writer.hpp:41-148). -/
def WOp.exec : WOp → M σ Unit
  | .char c => writeChar c
  | .charN c n => writeCharN c n
  | .str s => writeStr s
  | .area n text => writeArea n text
  | .int t n base upper => writeInt t n base upper
  | .strEscaped s => writeStrEscaped s
  | .charEscaped c => writeCharEscaped c

/-- Perform calls until the first error (`EMIO_TRYV`) (detail/predef.hpp:23-28). -/
def execAll : List WOp → M σ Unit
  | [] => pure ()
  | op :: ops => do
    op.exec
    execAll ops

end
end Emio
