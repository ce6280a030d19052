import Verif.Model.FormatArg
import Verif.Model.Bitset
/-
Model of include/emio/detail/parser.hpp, include/emio/detail/format/parser.hpp and
include/emio/detail/format/format_to.hpp, as used for formatting.
-/
namespace Emio

/-- An argument as the parser sees it (detail/args.hpp `validation_arg`, `arg`; detail/format/args.hpp
`format_arg_trait`): `validate` checks a specification, `parse` reads it and yields what `format` does with the
value (detail/args.hpp:20-75, 80-138, detail/format/args.hpp:14-27). -/
structure FArg where
  validate : M Reader Unit
  parse : M Reader (Fmt Unit)

/-- `formatter<T>` for core types (include/emio/formatter.hpp:89-161). -/
def CoreArg.farg (a : CoreArg) : FArg where
  validate := a.ty.validate
  parse := do
    let s ← parseFormatSpecs {}
    return a.write s

/-- State of a parser: the reader, `use_positional_args_` and `increment_arg_number_` (detail/parser.hpp:101-102,178-179). -/
structure PSt where
  rdr : Reader
  positional : Option Bool := none
  incr : Nat := 0
  deriving DecidableEq, Repr

/-- `no_more_args` (detail/parser.hpp:25). -/
def noMoreArgs : Nat := 255

/-- Run a reader function (`format_rdr_`, detail/parser.hpp:64, 153). -/
def PSt.onReader {α : Type} (m : M Reader α) : M PSt α := fun p =>
  match m p.rdr with
  | .ok r a => .ok { p with rdr := r } a
  | .err r e => .err { p with rdr := r } e
  | .bad b => .bad b

/-! ### With validation (detail/parser.hpp:27-103) -/

namespace Checked

/-- The loop of `parse` (detail/parser.hpp:39-61) over the remaining characters, of which `n` were read: the number of
characters read in the end, and whether a replacement field begins there; nothing for `invalid_format`. -/
def scan : Str → Nat → Option (Nat × Bool)
  | [], n => some (n, false)
  | c :: l, n =>
    if c = '{' then
      match l with
      | [] => none
      | d :: l' => if d = '{' then scan l' (n + 2) else some (n + 1, true)
    else if c = '}' then
      match l with
      | [] => none
      | d :: l' => if d = '}' then scan l' (n + 2) else none
    else scan l (n + 1)

/-- `parse_field_name` (detail/parser.hpp:82-99). -/
def fieldName : M PSt Nat := do
  let c ← PSt.onReader Reader.peek
  let p ← M.get
  if isDigit c then
    if p.positional = some false then M.throw .invalidFormat
    else
      let n ← PSt.onReader (Reader.parseInt u8 10)
      M.modify (fun p => { p with positional := some true })
      return n.toNat
  else if p.positional = some true then M.throw .invalidFormat
  else
    M.set { p with positional := some false, incr := (p.incr + 1) % 256 }
    return p.incr

/-- `parse_replacement_field` (detail/parser.hpp:67-80). -/
def replacementField : M PSt Nat := do
  let n ← fieldName
  let c ← PSt.onReader Reader.peek
  if c = '}' then return n
  else if c = ':' then
    M.modify (fun p => { p with rdr := p.rdr.pop 1 })
    return n
  else M.throw .invalidFormat

/-- `parse` (detail/parser.hpp:39-61): the argument number. -/
def parse : M PSt Nat := fun p =>
  match scan p.rdr.rest 0 with
  | none => .err p .invalidFormat
  | some (n, false) => .ok { p with rdr := { p.rdr with pos := p.rdr.pos + n } } noMoreArgs
  | some (n, true) => replacementField { p with rdr := { p.rdr with pos := p.rdr.pos + n } }

end Checked

/-- The loop of `validate` (detail/parser.hpp:231-246).  `fuel` bounds the number of rounds; each round reads an opening
brace, so the length of the string is enough unless a formatter moves the reader back. -/
def validateLoop (args : List FArg) : Nat → PSt → Bitset → Run Unit Bool
  | 0, _, _ => .bad .diverge
  | fuel + 1, p, matched =>
    match Checked.parse p with
    | .bad b => .bad b
    | .err _ _ => .ok () false
    | .ok p n =>
      if n = noMoreArgs then .ok () (matched.allFirst args.length)
      else if args.length ≤ n then .ok () false
      else
        match matched.set n with
        | none => .bad .terminate
        | some matched =>
          match args[n]? with
          | none => .bad .ub
          | some a =>
            match a.validate p.rdr with
            | .bad b => .bad b
            | .err _ _ => .ok () false
            | .ok r _ => validateLoop args fuel { p with rdr := r } matched

/-- `validate` (detail/parser.hpp:225-248) of a format string for arguments. -/
def validateStr (str : Str) (args : List FArg) : Run Unit Bool :=
  validateLoop args (str.length + 1) ⟨Reader.ofStr str, none, 0⟩ (Bitset.new 128)

/-! ### Without validation (detail/parser.hpp:105-180) -/

namespace Unchecked

/-- The loop of `parse` (detail/parser.hpp:117-164).  `pend` are the characters from `begin` to `it`; `n` characters were read.
Result: number of characters read, whether a replacement field begins there, and the pieces handed to `process`;
nothing for reading beyond the end. -/
def scan : Str → Str → Nat → Option (Nat × Bool × List Str)
  | pend, [], n => some (n, false, if pend ≠ [] then [pend] else [])
  | pend, c :: l, n =>
    if c = '{' then
      match l with
      | [] => none
      | d :: l' =>
        if d = '{' then
          match scan [] l' (n + 2) with
          | none => none
          | some (k, f, ps) => some (k, f, (pend ++ [c]) :: ps)
        else some (n + 1, true, if pend ≠ [] then [pend] else [])
    else if c = '}' then
      match l with
      | [] => none
      | _ :: l' =>
        match scan [] l' (n + 2) with
        | none => none
        | some (k, f, ps) => some (k, f, (pend ++ [c]) :: ps)
    else scan (pend ++ [c]) l (n + 1)

/-- `parse_field_name` (detail/parser.hpp:166-176). -/
def fieldName : M PSt Nat := do
  let c ← PSt.onReader (assumeValue Reader.peek)
  if isDigit c then
    let n ← PSt.onReader (assumeValue (Reader.parseInt u8 10))
    M.modify (fun p => { p with positional := some true })
    return n.toNat
  else
    let p ← M.get
    M.set { p with positional := some false, incr := (p.incr + 1) % 256 }
    return p.incr

/-- `parse_replacement_field` (detail/parser.hpp:156-164). -/
def replacementField : M PSt Nat := do
  let n ← fieldName
  let c ← PSt.onReader (assumeValue Reader.peek)
  if c = '}' then return n
  else
    M.modify (fun p => { p with rdr := p.rdr.pop 1 })
    return n

end Unchecked

/-- State of a format run: the parser and the calls to the writer made so far (detail/format/parser.hpp:14-47). -/
structure FSt where
  p : PSt
  ops : List WOp

namespace Unchecked

/-- `parse` (detail/parser.hpp:117-164) with `format_parser::process` (detail/format/parser.hpp:25-27). -/
def parse : M FSt Nat := fun s =>
  match scan [] s.p.rdr.rest 0 with
  | none => .bad .ub
  | some (n, field, pieces) =>
    let ops := s.ops ++ pieces.map WOp.str
    let p := { s.p with rdr := { s.p.rdr with pos := s.p.rdr.pos + n } }
    if !field then .ok ⟨p, ops⟩ noMoreArgs
    else
      match replacementField p with
      | .ok p k => .ok ⟨p, ops⟩ k
      | .err p e => .err ⟨p, ops⟩ e
      | .bad b => .bad b

end Unchecked

/-- `format_arg_trait::process_arg` (detail/format/args.hpp:22-26, detail/format/parser.hpp:29-43). -/
def processArg (a : FArg) : M FSt Unit := fun s =>
  match a.parse s.p.rdr with
  | .bad b => .bad b
  | .err r e => .err { s with p := { s.p with rdr := r } } e
  | .ok r act =>
    match act s.ops with
    | .ok ops _ => .ok ⟨{ s.p with rdr := r }, ops⟩ ()
    | .err ops e => .err ⟨{ s.p with rdr := r }, ops⟩ e
    | .bad b => .bad b

/-- The loop of `parse` (detail/parser.hpp:250-267).  See `validateLoop` for `fuel`. -/
def formatLoop (args : List FArg) : Nat → M FSt Unit
  | 0 => M.bad .diverge
  | fuel + 1 => do
    let n ← Unchecked.parse
    if n = noMoreArgs then return ()
    else
      match args[n]? with
      | none => M.bad .ub
      | some a =>
        processArg a
        formatLoop args fuel

/-- `parse<format_parser>` (detail/parser.hpp:250-267): the calls made to the writer and the result.
Simplification: undefined behaviour behind a writer call that fails is reported as undefined behaviour. -/
def formatRun (str : Str) (args : List FArg) : Run FSt Unit :=
  formatLoop args (str.length + 1) ⟨⟨Reader.ofStr str, none, 0⟩, []⟩

/-! ### Validated strings -/

/-- `check_if_plain_string` (validated_string_storage.hpp:16-23). -/
def checkIfPlainString (s : Str) : Bool := !s.contains '{' && !s.contains '}'

/-- `validated_string_storage` (validated_string_storage.hpp:26-74): whether it is plain, and the string unless the
validation failed. -/
structure VStr where
  plain : Bool
  str : Option Str
  deriving DecidableEq, Repr

/-- `validated_string_storage::from` (validated_string_storage.hpp:27-38).
A format string is always made this way, at run time or at compile time. -/
def VStr.make (s : Str) (args : List FArg) : Run Unit VStr :=
  if args.length = 0 ∧ checkIfPlainString s = true then .ok () ⟨true, some s⟩
  else
    match validateStr s args with
    | .ok _ true => .ok () ⟨false, some s⟩
    | .ok _ false => .ok () ⟨false, none⟩
    | .err _ e => .err () e
    | .bad b => .bad b

section
variable {σ : Type} [BufferImpl σ]

/-- Perform the calls of a format run on a buffer (detail/format/parser.hpp:25-43). -/
def runOn (r : Run FSt Unit) : M σ Unit := fun s =>
  match r with
  | .bad b => .bad b
  | .ok f _ => execAll f.ops s
  | .err f e =>
    match execAll f.ops s with
    | .ok s' _ => .err s' e
    | .err s' e' => .err s' e'
    | .bad b => .bad b

/-- `vformat_to` (detail/format/format_to.hpp:39-46). -/
def vformatTo (vs : VStr) (args : List FArg) : M σ Unit :=
  match vs.str with
  | none => M.throw .invalidFormat
  | some str => if vs.plain then writeStr str else runOn (formatRun str args)

/-- `emio::format_to(buffer&, runtime string, args...)` (include/emio/format.hpp:142-149, 160-180): make the format
string, then format. -/
def formatTo (str : Str) (args : List FArg) : M σ Unit := fun s =>
  match VStr.make str args with
  | .ok _ vs => vformatTo vs args s
  | .err _ e => .err s e
  | .bad b => .bad b

end

end Emio
