import Verif.Model.Values
import Verif.Model.Scan
/-
Model of include/emio/detail/args.hpp: type-erased arguments, stored beside a format or scan string
(`make_format_args`, `make_scan_args`) and used later, when the memory they refer to may have changed.
-/
namespace Emio

/-- What is at an address (detail/args.hpp:116-135). -/
inductive Obj
  /-- A variable of an arithmetic or pointer type, already of its unified type (see Model/Unified.lean). -/
  | scalar (a : CoreArg)
  /-- Characters: those of a `std::string`, an array or a literal. -/
  | chars (s : Str)
  /-- An object of any other type. -/
  | value (v : FVal)

/-- The memory: nothing at an address where no object is (anymore) (the objects outside of the arguments, which hold
references only: detail/args.hpp:94, 133-134). -/
abbrev Memory := Nat → Option Obj

/-- An argument of `make_format_args`, by what its type is unified to (`unified_type`,
include/emio/detail/format/formatter.hpp:834-874). -/
inductive ArgRef
  /-- An arithmetic or pointer variable: unified to a value. -/
  | scalar (addr : Nat) (t : CoreTy)
  /-- A `std::string` or `std::string_view`: unified to a view of the `len` characters from `off` on. -/
  | view (addr off len : Nat)
  /-- A pointer to characters: unified to a view, up to the NUL. -/
  | cstr (addr off : Nat)
  /-- An object of another type: unified to a reference. -/
  | object (addr : Nat) (t : FTy)

/-- The type that decides about the formatter (`Trait<T>`, detail/args.hpp:83-88). -/
def ArgRef.ty : ArgRef → FTy
  | .scalar _ t => .core t
  | .view .. => .core .string
  | .cstr .. => .core .string
  | .object _ t => t

/-- `validation_arg` (include/emio/detail/args.hpp:20-75): only the type is known. -/
def FTy.validationArg (t : FTy) : FArg := ⟨t.validate, M.bad .ub⟩

/-- `arg` (include/emio/detail/args.hpp:80-138): `value_` is of the unified type. -/
inductive StoredArg
  | copy (a : CoreArg)
  | view (addr off len : Nat)
  | ref (addr : Nat) (t : FTy)

/-- The constructor of `arg` (include/emio/detail/args.hpp:83-88): conversion to the unified type.  Nothing for undefined
behaviour: reading a variable or characters that are not there, or characters without NUL. -/
def ArgRef.store (mem : Memory) : ArgRef → Option StoredArg
  | .scalar addr t =>
    match mem addr with
    | some (.scalar a) => if a.ty = t then some (.copy a) else none
    | _ => none
  | .view addr off len => some (.view addr off len)
  | .cstr addr off =>
    match mem addr with
    | some (.chars s) =>
      if '\x00' ∈ s.drop off then some (.view addr off ((s.drop off).takeWhile (· ≠ '\x00')).length) else none
    | _ => none
  | .object addr t => some (.ref addr t)

/-- What a stored argument stands for with this memory; nothing if what it refers to is not there
(detail/args.hpp:130-134). -/
def StoredArg.value (mem : Memory) : StoredArg → Option FVal
  | .copy a => some (.core a)
  | .view addr off len =>
    match mem addr with
    | some (.chars s) => if off + len ≤ s.length then some (.core (.string ((s.drop off).take len))) else none
    | _ => none
  | .ref addr _ =>
    match mem addr with
    | some (.value v) => some v
    | _ => none

/-- The type that decided about the formatter (detail/args.hpp:126-128). -/
def StoredArg.ty : StoredArg → FTy
  | .copy a => .core a.ty
  | .view .. => .core .string
  | .ref _ t => t

/-- `arg::process_arg` (detail/args.hpp:96-99, 126-128) with the memory at that time; undefined behaviour if
what is referred to is not there. -/
def StoredArg.farg (mem : Memory) (a : StoredArg) : FArg :=
  match a.value mem with
  | some v => v.farg a.ty
  | none => a.ty.validationArg

/-- `args_storage` (include/emio/detail/args.hpp:205-221) with its base classes: the validated string and the arguments. -/
structure ArgsStorage where
  str : VStr
  args : List StoredArg

/-- The constructors of the array of arguments (include/emio/detail/args.hpp:208-211). -/
def storeAll (mem : Memory) : List ArgRef → Option (List StoredArg)
  | [] => some []
  | r :: rs =>
    match r.store mem, storeAll mem rs with
    | some a, some as => some (a :: as)
    | _, _ => none

/-- `make_format_args` (include/emio/format.hpp:41-45) with a runtime string, which is validated with the types. -/
def ArgsStorage.make (mem : Memory) (str : Str) (refs : List ArgRef) : Run Unit ArgsStorage :=
  match VStr.make str (refs.map fun r => r.ty.validationArg) with
  | .ok _ vs =>
    match storeAll mem refs with
    | some args => .ok () ⟨vs, args⟩
    | none => .bad .ub
  | .err _ e => .err () e
  | .bad b => .bad b

section
variable {σ : Type} [BufferImpl σ]

/-- `vformat_to(buffer&, const format_args&)` (include/emio/detail/format/format_to.hpp:39-46), with the memory at that
time. -/
def ArgsStorage.formatTo (mem : Memory) (st : ArgsStorage) : M σ Unit :=
  vformatTo st.str (st.args.map (StoredArg.farg mem))

/-- `make_format_args` with the memory `mem`, then `vformat_to` when the memory is `mem'` (format.hpp:41-45,
detail/format/format_to.hpp:39-46). -/
def formatLater (mem mem' : Memory) (str : Str) (refs : List ArgRef) : M σ Unit := fun s =>
  match ArgsStorage.make mem str refs with
  | .ok _ st => st.formatTo mem' s
  | .err _ e => .err s e
  | .bad b => .bad b

end

/-! ### Scanning -/

/-- The memory with variables that can be scanned (the variables that arguments refer to: detail/scan/args.hpp:15-16).
-/
abbrev ScanMemory := Nat → Option ScanVal

/-- The memory with a variable set (writing through `Arg&`, detail/scan/args.hpp:15-16). -/
def ScanMemory.set (mem : ScanMemory) (addr : Nat) (v : ScanVal) : ScanMemory := fun a => if a = addr then some v else mem a

/-- State of a scan run: the parser, the input and the memory (detail/parser.hpp:250-253). -/
structure MSt where
  p : PSt
  inp : Reader
  mem : ScanMemory

/-- `parse` (include/emio/detail/parser.hpp:117-164) with `scan_parser::process`; see `scanParse`. -/
def memParse : M MSt Nat := fun s =>
  match scanParse ⟨s.p, s.inp, []⟩ with
  | .ok s' n => .ok ⟨s'.p, s'.inp, s.mem⟩ n
  | .err s' e => .err ⟨s'.p, s'.inp, s.mem⟩ e
  | .bad b => .bad b

/-- `arg::process_arg` (include/emio/detail/args.hpp:96-99, 126-128) for a stored reference to a variable
(include/emio/detail/scan/args.hpp:18-33, 35-39). -/
def memArg (addr : Nat) (ty : ScanTy) : M MSt Unit := fun s =>
  match ty.parse s.p.rdr with
  | .bad b => .bad b
  | .err r e => .err { s with p := { s.p with rdr := r } } e
  | .ok r act =>
    match s.mem addr with
    | none => .bad .ub
    | some v =>
      match act ⟨s.inp, v⟩ with
      | .ok sl _ => .ok ⟨{ s.p with rdr := r }, sl.inp, s.mem.set addr sl.var⟩ ()
      | .err sl e => .err ⟨{ s.p with rdr := r }, sl.inp, s.mem.set addr sl.var⟩ e
      | .bad b => .bad b

/-- The loop of `parse` (include/emio/detail/parser.hpp:250-267), with arguments that are stored references. -/
def memLoop (refs : List (Nat × ScanTy)) : Nat → M MSt Unit
  | 0 => M.bad .diverge
  | fuel + 1 => do
    let n ← memParse
    if n = noMoreArgs then return ()
    else
      match refs[n]? with
      | none => M.bad .ub
      | some ref =>
        memArg ref.1 ref.2
        memLoop refs fuel

/-- The input and the memory (`reader& in` and what `scan_args` refers to, detail/scan/scan_from.hpp:35). -/
structure MemIO where
  inp : Reader
  mem : ScanMemory

/-- `vscan_from(reader&, const scan_args&)` (include/emio/detail/scan/scan_from.hpp:35-41). -/
def vscanFromMem (vs : VStr) (refs : List (Nat × ScanTy)) : M MemIO Unit := fun io =>
  match vs.str with
  | none => .err io .invalidFormat
  | some str =>
    if vs.plain then
      match Reader.readIfMatchStr str io.inp with
      | .ok r _ => .ok { io with inp := r } ()
      | .err r e => .err { io with inp := r } e
      | .bad b => .bad b
    else
      match memLoop refs (str.length + 1) ⟨⟨Reader.ofStr str, none, 0⟩, io.inp, io.mem⟩ with
      | .ok s _ => .ok ⟨s.inp, s.mem⟩ ()
      | .err s e => .err ⟨s.inp, s.mem⟩ e
      | .bad b => .bad b

/-- `make_scan_args` (include/emio/scan.hpp:29-43) with a runtime string, then `vscan_from`. -/
def scanFromMem (str : Str) (refs : List (Nat × ScanTy)) : M MemIO Unit := fun io =>
  match VStr.make str (refs.map fun r => r.2.farg) with
  | .ok _ vs => vscanFromMem vs refs io
  | .err _ e => .err io e
  | .bad b => .bad b

end Emio
