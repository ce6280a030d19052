import Verif.Model.Scan
/-
Scanners written by the user of the library (include/emio/scanner.hpp:21-61; docs/API.md "Scanner"), and scanning with them.
-/
namespace Emio

/-- The input and a variable of type `V` (`reader& in, T& arg`, scanner.hpp:57). -/
structure Cell (V : Type) where
  inp : Reader
  var : V
  deriving DecidableEq, Repr

/-- A specialisation `scanner<T>` (include/emio/scanner.hpp:21-61): `State` is what the scanner remembers of a
specification, `validate` the optional static function, `parse` yields the state, `scan` reads the input and writes the
variable.  Simplification: the variables of a scan have one type `V`, e.g. a sum of types. -/
structure UserScanner (V : Type) where
  State : Type
  validate : Option (M Reader Unit)
  parse : M Reader State
  scan : State → M (Cell V) Unit

/-- A part of a variable, e.g. a member of a class (docs/API.md:1003-1015). -/
structure Part (W V : Type) where
  get : W → V
  put : V → W → W

namespace UserScanner
variable {V W : Type}

/-- `scan_arg_trait::validate` (include/emio/detail/scan/args.hpp:18-33): `validate` if there is one, otherwise `parse` of
a scanner that is thrown away. -/
def check (f : UserScanner V) : M Reader Unit :=
  match f.validate with
  | some v => v
  | none => do
    let _ ← f.parse
    return ()

/-- The variable as the validation sees it (include/emio/detail/scan/args.hpp:18-33); scan strings are never formatted. -/
def farg (f : UserScanner V) : FArg := ⟨f.check, M.bad .ub⟩

/-- A scanner that inherits `validate` and `parse` from another one, and whose `scan` scans a part of the variable with it
(docs/API.md:1003-1015). -/
def inherit (f : UserScanner V) (part : Part W V) : UserScanner W where
  State := f.State
  validate := f.validate
  parse := f.parse
  scan s := fun c =>
    match f.scan s ⟨c.inp, part.get c.var⟩ with
    | .ok c' _ => .ok ⟨c'.inp, part.put c'.var c.var⟩ ()
    | .err c' e => .err ⟨c'.inp, part.put c'.var c.var⟩ e
    | .bad b => .bad b

end UserScanner

/-- A variable of the library's own types (scanner.hpp:93, 141). -/
def Slot.cell (s : Slot) : Cell ScanVal := ⟨s.inp, s.var⟩

/-- The same the other way round (scanner.hpp:93, 141). -/
def Cell.slot (c : Cell ScanVal) : Slot := ⟨c.inp, c.var⟩

/-- `scanner<T>` of the library (include/emio/scanner.hpp:63-164): it remembers the specification and, for strings, the
reader over the format string. -/
def ScanTy.scanner (ty : ScanTy) : UserScanner ScanVal where
  State := ScanSpecs × Reader
  validate := some ty.validate
  parse := do
    let s ← parseScanSpecs {}
    let fmt ← M.get
    return (s, fmt)
  scan s := fun c =>
    match ty.scan s.1 s.2 c.slot with
    | .ok sl _ => .ok sl.cell ()
    | .err sl e => .err sl.cell e
    | .bad b => .bad b

/-- State of a scan run: the parser, the input and the variables (detail/parser.hpp:250-267). -/
structure UState (V : Type) where
  p : PSt
  inp : Reader
  vars : List V

/-- `parse` (include/emio/detail/parser.hpp:117-164) with `scan_parser::process`; see `scanParse`. -/
def userParse {V : Type} : M (UState V) Nat := fun s =>
  match Unchecked.scan [] s.p.rdr.rest 0 with
  | none => .bad .ub
  | some (n, field, pieces) =>
    let p := { s.p with rdr := { s.p.rdr with pos := s.p.rdr.pos + n } }
    match matchAll pieces s.inp with
    | .bad b => .bad b
    | .err r e => .err ⟨p, r, s.vars⟩ e
    | .ok r _ =>
      if !field then .ok ⟨p, r, s.vars⟩ noMoreArgs
      else
        match Unchecked.replacementField p with
        | .ok p k => .ok ⟨p, r, s.vars⟩ k
        | .err p e => .err ⟨p, r, s.vars⟩ e
        | .bad b => .bad b

/-- `process_arg` (include/emio/detail/scan/args.hpp:35-39) for variable `n`. -/
def userArg {V : Type} (n : Nat) (f : UserScanner V) : M (UState V) Unit := fun s =>
  match f.parse s.p.rdr with
  | .bad b => .bad b
  | .err r e => .err { s with p := { s.p with rdr := r } } e
  | .ok r st =>
    match s.vars[n]? with
    | none => .bad .ub
    | some v =>
      match f.scan st ⟨s.inp, v⟩ with
      | .ok c _ => .ok ⟨{ s.p with rdr := r }, c.inp, s.vars.set n c.var⟩ ()
      | .err c e => .err ⟨{ s.p with rdr := r }, c.inp, s.vars.set n c.var⟩ e
      | .bad b => .bad b

/-- The loop of `parse` (include/emio/detail/parser.hpp:250-267).  See `validateLoop` for `fuel`. -/
def userLoop {V : Type} (fs : List (UserScanner V)) : Nat → M (UState V) Unit
  | 0 => M.bad .diverge
  | fuel + 1 => do
    let n ← userParse
    if n = noMoreArgs then return ()
    else
      match fs[n]? with
      | none => M.bad .ub
      | some f =>
        userArg n f
        userLoop fs fuel

/-- The input and the variables (detail/scan/scan_from.hpp:35-50). -/
structure UserIO (V : Type) where
  inp : Reader
  vars : List V
  deriving DecidableEq, Repr

/-- `emio::scan_from(reader&, runtime string, args&...)` (include/emio/scan.hpp:75-84, detail/scan/scan_from.hpp:35-41) with
any scanners. -/
def userScanFrom {V : Type} (str : Str) (fs : List (UserScanner V)) : M (UserIO V) Unit := fun io =>
  match VStr.make str (fs.map UserScanner.farg) with
  | .bad b => .bad b
  | .err _ e => .err io e
  | .ok _ vs =>
    match vs.str with
    | none => .err io .invalidFormat
    | some str =>
      if vs.plain then
        match Reader.readIfMatchStr str io.inp with
        | .ok r _ => .ok { io with inp := r } ()
        | .err r e => .err { io with inp := r } e
        | .bad b => .bad b
      else
        match userLoop fs (str.length + 1) ⟨⟨Reader.ofStr str, none, 0⟩, io.inp, io.vars⟩ with
        | .ok s _ => .ok ⟨s.inp, s.vars⟩ ()
        | .err s e => .err ⟨s.inp, s.vars⟩ e
        | .bad b => .bad b

/-- `emio::scan(input, runtime string, args&...)` (include/emio/scan.hpp:93-101) with any scanners: the variables. -/
def userScan {V : Type} (input str : Str) (fs : List (UserScanner V)) : M (List V) Unit := fun vars =>
  match userScanFrom str fs ⟨Reader.ofStr input, vars⟩ with
  | .ok io _ => if io.inp.eof then .ok io.vars () else .err io.vars .invalidFormat
  | .err io e => .err io.vars e
  | .bad b => .bad b

end Emio
