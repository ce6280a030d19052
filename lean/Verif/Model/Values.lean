import Verif.Model.Format
/-
Model of include/emio/ranges.hpp, include/emio/detail/format/ranges.hpp, include/emio/std.hpp, of the formatter for
dynamic specifications (include/emio/formatter.hpp:204-296) and of the formatter for `format_args`
(include/emio/detail/format/format_to.hpp:62-82).

Types that only forward to another formatter are not told apart from it: `std::string` and `const char*` from
`std::string_view`, exceptions and paths from their string, enumerations from their number, types with `format_as` from
its result (emio/formatter.hpp:163-195, std.hpp:50-74), contiguous ranges from a span (emio/ranges.hpp:108-110).
-/
namespace Emio

/-! ### Types, values and formatters -/

/-- Types with a formatter (emio/formatter.hpp:89-195, emio/ranges.hpp:20-259, std.hpp:24-144). -/
inductive FTy
  /-- Core types (emio/formatter.hpp:89-161). -/
  | core (t : CoreTy)
  /-- Ranges (emio/ranges.hpp:20-102); `curly` for sets and maps.  The element type of a map is a pair with `entry`. -/
  | range (curly : Bool) (elem : FTy)
  /-- Tuples and pairs (emio/ranges.hpp:116-259); `entry` for the pairs of a map. -/
  | tuple (entry : Bool) (elems : List FTy)
  /-- `std::optional` (std.hpp:24-48). -/
  | optional (content : FTy)
  /-- `std::monostate` (std.hpp:79-93). -/
  | monostate
  /-- `std::variant` (std.hpp:99-144). -/
  | variant (alternatives : List FTy)
  deriving Repr

/-- Values (emio/formatter.hpp:89-195, emio/ranges.hpp:20-259, std.hpp:24-144). -/
inductive FVal
  | core (a : CoreArg)
  | range (elems : List FVal)
  | tuple (elems : List FVal)
  | none
  | some (content : FVal)
  | monostate
  /-- A variant with its current alternative. -/
  | variant (alternative : FTy) (content : FVal)
  /-- A variant that is valueless by exception. -/
  | valueless
  deriving Repr

/-- Sequences (emio/ranges.hpp:39-41). -/
def FTy.seq (t : FTy) : FTy := .range false t
/-- Sets (emio/ranges.hpp:50-52). -/
def FTy.set (t : FTy) : FTy := .range true t
/-- Maps (emio/ranges.hpp:43-48). -/
def FTy.map (k v : FTy) : FTy := .range true (.tuple true [k, v])

/-- Formatter objects with their members (emio/formatter.hpp:89-161, emio/ranges.hpp:20-259, std.hpp:24-144). -/
inductive Fmtr
  /-- `specs_` (emio/formatter.hpp:160). -/
  | core (t : CoreTy) (specs : Specs)
  /-- `specs_` and `underlying_` (emio/ranges.hpp:100-101). -/
  | range (opening closing separator : Str) (underlying : Fmtr)
  /-- `specs_` and `formatters_` (emio/ranges.hpp:257-258). -/
  | tuple (opening closing separator : Str) (formatters : List Fmtr)
  /-- `underlying_` (std.hpp:47). -/
  | optional (underlying : Fmtr)
  | monostate
  | variant
  deriving Repr

mutual
/-- The default constructors (emio/ranges.hpp:39-52, 120; emio/formatter.hpp:160). -/
def FTy.fresh : FTy → Fmtr
  | .core t => .core t {}
  | .range curly e => .range (if curly then ['{'] else ['[']) (if curly then ['}'] else [']']) [',', ' '] e.fresh
  | .tuple entry ts =>
    if entry then .tuple [] [] [':', ' '] (FTy.freshEach ts)
    else .tuple ['('] [')'] [',', ' '] (FTy.freshEach ts)
  | .optional t => .optional t.fresh
  | .monostate => .monostate
  | .variant _ => .variant

/-- The formatters of the elements of a tuple (detail/format/ranges.hpp:108-114). -/
def FTy.freshEach : List FTy → List Fmtr
  | [] => []
  | t :: ts => t.fresh :: FTy.freshEach ts
end

/-! ### Validation -/

/-- The elements of a tuple are given copies of the reader (emio/ranges.hpp:174, 207), so that the reader stays. -/
def onCopies {α : Type} (f : Reader → Run Unit α) : M Reader α := fun r =>
  match f r with
  | .ok _ a => .ok r a
  | .err _ e => .err r e
  | .bad b => .bad b

/-- The beginning of `validate` for ranges and tuples (emio/ranges.hpp:25-32, 132-139): whether a specification of the
elements follows. -/
def validateRangeHead : M Reader Bool := do
  let c ← Reader.readChar
  let c ← (if c = 'n' then Reader.readChar else pure c)
  if c = '}' then return false
  else if c = ':' then return true
  else M.throw .invalidFormat

mutual
/-- `formatter<T>::validate` (emio/formatter.hpp:93-115; emio/ranges.hpp:24-37, 131-144; std.hpp:28-30, 82-84, 103-105). -/
def FTy.validate : FTy → M Reader Unit
  | .core t => t.validate
  | .range _ e => do
    if ← validateRangeHead then e.validate else return ()
  | .tuple _ ts => do
    if ← validateRangeHead then
      if ts.isEmpty then M.throw .invalidFormat
      else
        let pos ← onCopies (fun r => FTy.validateEach r ts 0)
        M.modify (fun r => if pos ≠ 0 then r.pop pos else r)
    else return ()
  | .optional t => t.validate
  | .monostate => do
    let _ ← Reader.readIfMatchChar '}'
  | .variant _ => do
    let _ ← Reader.readIfMatchChar '}'

/-- The calls of `validate` with a copy of the reader (emio/ranges.hpp:170-198): the new `reader_pos`. -/
def FTy.validateEach (r : Reader) : List FTy → Nat → Run Unit Nat
  | [], pos => .ok () pos
  | t :: ts, pos =>
    match t.validate r with
    | .bad b => .bad b
    | .err _ e => .err () e
    | .ok r' _ =>
      if pos = 0 then FTy.validateEach r ts r'.pos
      else if pos ≠ r'.pos then .err () .invalidFormat
      else FTy.validateEach r ts pos
end

/-! ### Parsing -/

/-- `maybe_set_debug_format` (detail/format/ranges.hpp:70-77) with `set_debug_format` (emio/formatter.hpp:131-139), which
only the formatters of `char` and `std::string_view` have. -/
def Fmtr.setDebug (enabled : Bool) : Fmtr → Fmtr
  | .core .char s => .core .char { s with type := if enabled then '?' else noChar }
  | .core .string s => .core .string { s with type := if enabled then '?' else noChar }
  | f => f

/-- The beginning of `parse` for ranges and tuples (emio/ranges.hpp:64-74, 147-158): whether the brackets are left out, and
whether a specification of the elements follows. -/
def parseRangeHead : M Reader (Bool × Bool) := do
  let c ← assumeValue Reader.peek
  let n := decide (c = 'n')
  let c ← (if n then do
    M.modify (·.pop 1)
    assumeValue Reader.peek
  else pure c)
  if c = '}' then return (n, false)
  else
    M.modify (·.pop 1)
    return (n, true)

mutual
/-- `maybe_set_debug_format(f, debug)` (if there is a `debug`) and then `f.parse`: see `Fmtr.parse`
(detail/format/ranges.hpp:70-77). -/
def Fmtr.parseWith (debug : Option Bool) : Fmtr → M Reader Fmtr
  | .core t s => do
    let s ← parseFormatSpecs (match debug with
      | some enabled => if t = .char ∨ t = .string then { s with type := if enabled then '?' else noChar } else s
      | none => s)
    return .core t s
  | .range o c sep f => do
    let (n, more) ← parseRangeHead
    let f ← Fmtr.parseWith (if more then none else some true) f
    return .range (if n then [] else o) (if n then [] else c) sep f
  | .tuple o c sep fs => do
    let (n, more) ← parseRangeHead
    if fs.isEmpty then
      if more then M.throw .invalidFormat
      else
        M.modify (·.pop 1)
        return .tuple (if n then [] else o) (if n then [] else c) sep []
    else
      let (fs, pos) ← onCopies (fun r => Fmtr.parseEach (!more) r fs 0)
      M.modify (·.pop pos)
      return .tuple (if n then [] else o) (if n then [] else c) sep fs
  | .optional f => do
    let f ← Fmtr.parseWith none f
    return .optional f
  | .monostate => do
    let _ ← Reader.readIfMatchChar '}'
    return .monostate
  | .variant => do
    let _ ← Reader.readIfMatchChar '}'
    return .variant

/-- The calls of `parse` with a copy of the reader (emio/ranges.hpp:200-228): the formatters and the new `reader_pos`. -/
def Fmtr.parseEach (debug : Bool) (r : Reader) : List Fmtr → Nat → Run Unit (List Fmtr × Nat)
  | [], pos => .ok () ([], pos)
  | f :: fs, _ =>
    match Fmtr.parseWith (some debug) f r with
    | .bad b => .bad b
    | .err _ e => .err () e
    | .ok r' f' =>
      match Fmtr.parseEach debug r fs r'.pos with
      | .ok _ (fs', pos) => .ok () (f' :: fs', pos)
      | .err _ e => .err () e
      | .bad b => .bad b
end

/-- `parse` (emio/formatter.hpp:117-119; emio/ranges.hpp:63-76, 146-160; std.hpp:32-34, 86-88, 107-109). -/
def Fmtr.parse (f : Fmtr) : M Reader Fmtr := Fmtr.parseWith none f

/-- `parseWith` does what its comment says. -/
theorem Fmtr.parseWith_some (enabled : Bool) (f : Fmtr) : Fmtr.parseWith (some enabled) f = (f.setDebug enabled).parse := by
  unfold Fmtr.parse
  cases f with
  | core t s => cases t <;> simp [Fmtr.parseWith, Fmtr.setDebug]
  | _ => simp [Fmtr.parseWith, Fmtr.setDebug]

/-! ### Formatting -/

mutual
/-- `format` (emio/formatter.hpp:121-124; emio/ranges.hpp:78-93, 162-167; std.hpp:36-44, 90-92, 111-143).  A formatter of another
type than the value's is not possible. -/
def FVal.format : FVal → Fmtr → Fmt Unit
  | .core a, .core _ s => a.write s
  | .range vs, .range o c sep f => do
    emit (.str o)
    FVal.formatRange sep f true vs
    emit (.str c)
  | .tuple vs, .tuple o c sep fs => do
    emit (.str o)
    FVal.formatTuple sep true vs fs
    emit (.str c)
  | .none, .optional _ => emit (.str ['n', 'o', 'n', 'e'])
  | .some v, .optional f => do
    emit (.str ['o', 'p', 't', 'i', 'o', 'n', 'a', 'l', '('])
    v.format f
    emit (.char ')')
  | .monostate, .monostate => emit (.str ['m', 'o', 'n', 'o', 's', 't', 'a', 't', 'e'])
  | .variant t v, .variant => do
    emit (.str ['v', 'a', 'r', 'i', 'a', 'n', 't', '('])
    (match v with
      | .core (.char c) => emit (.charEscaped c)
      | .core (.string s) => emit (.strEscaped s)
      | _ => fun ops =>
        match t.fresh.parse (Reader.ofStr ['}']) with
        | .ok _ f => v.format f ops
        | .err _ e => .err ops e
        | .bad b => .bad b)
    emit (.char ')')
  | .valueless, .variant => do
    emit (.str ['v', 'a', 'r', 'i', 'a', 'n', 't', '('])
    emit (.str ['v', 'a', 'l', 'u', 'e', 'l', 'e', 's', 's', ' ', 'b', 'y', ' ',
      'e', 'x', 'c', 'e', 'p', 't', 'i', 'o', 'n'])
    emit (.char ')')
  | _, _ => M.bad .ub

/-- The loop over the elements of a range (emio/ranges.hpp:85-90). -/
def FVal.formatRange (sep : Str) (f : Fmtr) (first : Bool) : List FVal → Fmt Unit
  | [] => return ()
  | v :: vs => do
    if !first then emit (.str sep)
    v.format f
    FVal.formatRange sep f false vs

/-- `format_for_each` (emio/ranges.hpp:230-255). -/
def FVal.formatTuple (sep : Str) (first : Bool) : List FVal → List Fmtr → Fmt Unit
  | [], [] => return ()
  | v :: vs, f :: fs => do
    if !first then emit (.str sep)
    v.format f
    FVal.formatTuple sep false vs fs
  | _, _ => M.bad .ub
end

/-! ### Arguments -/

/-- An argument of this type (detail/format/args.hpp:18-26). -/
def FVal.farg (ty : FTy) (v : FVal) : FArg where
  validate := ty.validate
  parse := do
    let f ← ty.fresh.parse
    return v.format f

/-- `format_spec::not_defined` (emio/formatter.hpp:209). -/
def notDefined : Int := -2147483647

/-- `overwrite_spec` (emio/formatter.hpp:284-293) with `get_core_formatter` (emio/formatter.hpp:269-282), `set_width` and
`set_precision` (emio/formatter.hpp:146-157).  For other formatters the program does not compile. -/
def Fmtr.overwrite (width precision : Int) : Fmtr → Fmtr
  | .core t s =>
    let s := if width ≠ notDefined then { s with width := max 0 width } else s
    .core t (if precision ≠ notDefined then { s with precision := max 0 precision } else s)
  | .range o c sep f => .range o c sep (f.overwrite width precision)
  | f => f

/-- An argument with a dynamic specification, `format_spec{width, precision}.with(v)` (emio/formatter.hpp:252-296). -/
def FVal.dynamic (ty : FTy) (v : FVal) (width precision : Int) : FArg where
  validate := ty.validate
  parse := do
    let f ← ty.fresh.parse
    return v.format (f.overwrite width precision)

/-- The result of `make_format_args(str, args...)` as an argument (detail/format/format_to.hpp:62-81). -/
def formatArgs (str : Str) (args : List FArg) : FArg where
  validate := do
    let _ ← Reader.readIfMatchChar '}'
  parse := do
    let _ ← Reader.readIfMatchChar '}'
    return fun ops =>
      match VStr.make str args with
      | .bad b => .bad b
      | .err _ e => .err ops e
      | .ok _ vs =>
        match vs.str with
        | none => .err ops .invalidFormat
        | some str =>
          if vs.plain then emit (.str str) ops
          else
            match formatRun str args with
            | .ok f _ => .ok (ops ++ f.ops) ()
            | .err f e => .err (ops ++ f.ops) e
            | .bad b => .bad b

/-! Examples. -/

/-- The type `int` (for examples: the core type `int32_t`, detail/format/formatter.hpp:823-826). -/
def FTy.int : FTy := .core (.int i32)
/-- Strings (for examples: the core type `std::string_view`, detail/format/formatter.hpp:823-826). -/
def FTy.string : FTy := .core .string

/-- A number (for examples: the core type `int32_t`, detail/format/formatter.hpp:823-826). -/
def FVal.int (n : Int) : FVal := .core (.int i32 n)
/-- A string (for examples: the core type `std::string_view`, detail/format/formatter.hpp:823-826). -/
def FVal.string (s : String) : FVal := .core (.string s.toList)

example : formatStr "<{}|{::>3}|{:n:x}>".toList [(FVal.range [.int 1, .int 22]).farg (.seq .int),
    (FVal.range [.int 1, .int 22]).farg (.set .int), (FVal.range [.int 10, .int 12]).farg (.seq .int)] =
    .ok () "<[1, 22]|{  1,  22}|a, c>".toList := by decide +kernel
example : formatStr "{} {} {} {}".toList [(FVal.range [.string "a", .string "b\n"]).farg (.seq .string),
    (FVal.some (.int 4)).farg (.optional .int), (FVal.variant .string (.string "x")).farg (.variant [.int, .string]),
    (FVal.range [.range [], .range [.int 1]]).farg (.seq (.seq .int))] =
    .ok () "[\"a\", \"b\\n\"] optional(4) variant(\"x\") [[], [1]]".toList := by decide +kernel
example : formatStr "{}".toList [(FVal.range [.tuple [.string "a", .int 1], .tuple [.string "b", .int 2]]).farg
    (.map .string .int)] = .ok () "{\"a\": 1, \"b\": 2}".toList := by decide +kernel
example : formatStr "{::<3}".toList [(FVal.tuple [.string "a", .int 1]).farg (.tuple false [.string, .int])] =
    .ok () "(a  , 1  )".toList := by decide +kernel
/-- Defects: text behind a tuple is lost, and a field behind a tuple is not recognised as such. -/
example : formatStr "{}!".toList [(FVal.tuple [.int 1]).farg (.tuple false [.int])] = .ok () "(1)".toList ∧
    formatStr "{}{}".toList [(FVal.tuple [.int 1]).farg (.tuple false [.int]), (FVal.int 2).farg .int] = .bad .ub := by
  decide +kernel
example : formatStr "{:*>4}{:.2f}".toList [(FVal.int 7).dynamic .int 6 notDefined,
    (FVal.core (.double 0x3ff8000000000000)).dynamic (.core .double) notDefined 0] = .ok () "*****72".toList ∧
    formatStr "{}={}".toList [formatArgs "{}+{}".toList [(FVal.int 1).farg .int, (FVal.int 2).farg .int],
      (FVal.int 3).farg .int] = .ok () "1+2=3".toList := by
  decide +kernel

end Emio
