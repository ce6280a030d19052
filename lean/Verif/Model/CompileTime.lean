import Verif.Model.Format
import Verif.Model.Scan
/-
Model of the branches that are taken in constant expressions (`EMIO_Z_INTERNAL_IS_CONST_EVAL`).

The arguments are then not type-erased: the argument of a field is found by walking along the list of arguments.
Undefined behaviour in a constant expression is a compile-time error.
-/
namespace Emio
namespace CompileTime

/-- `apply(arg_pos, args...)` (detail/parser.hpp:207-218) for an operation on one argument: `invalid_format` at the end of
the list. -/
def apply {α σ β : Type} (f : α → M σ β) : Nat → List α → M σ β
  | _, [] => M.throw .invalidFormat
  | 0, a :: _ => f a
  | n + 1, _ :: as => apply f n as

/-- `check_if_plain_string` (validated_string_storage.hpp:17-18): `find_first_of("{}") == npos`. -/
def checkIfPlainString (s : Str) : Bool := !s.any (fun c => c = '{' || c = '}')

/-- The loop of `validate` (detail/parser.hpp:225-248) as called by `validate_string` at compile time
(detail/format/format_to.hpp:23-24, detail/scan/scan_from.hpp:20-21). -/
def validateLoop (args : List FArg) : Nat → PSt → Bitset → Run Unit Bool
  | 0, _, _ => .bad .diverge
  | fuel + 1, p, matched =>
    match Checked.parse p with
    | .bad b => .bad b
    | .err _ _ => .ok () false
    | .ok p n =>
      if n = noMoreArgs then .ok () (matched.allFirst args.length)
      else if args.length ≤ n then .ok () false
      else
        match matched.set n with
        | none => .bad .terminate
        | some matched =>
          match apply FArg.validate n args p.rdr with
          | .bad b => .bad b
          | .err _ _ => .ok () false
          | .ok r _ => validateLoop args fuel { p with rdr := r } matched

/-- `validate` (detail/parser.hpp:225-248). -/
def validateStr (str : Str) (args : List FArg) : Run Unit Bool :=
  validateLoop args (str.length + 1) ⟨Reader.ofStr str, none, 0⟩ (Bitset.new 128)

/-- `validated_string_storage::from` (validated_string_storage.hpp:27-38). -/
def make (s : Str) (args : List FArg) : Run Unit VStr :=
  if args.length = 0 ∧ checkIfPlainString s = true then .ok () ⟨true, some s⟩
  else
    match validateStr s args with
    | .ok _ true => .ok () ⟨false, some s⟩
    | .ok _ false => .ok () ⟨false, none⟩
    | .err _ e => .err () e
    | .bad b => .bad b

/-- The loop of `parse<format_parser>` (detail/parser.hpp:250-267) with the arguments themselves. -/
def formatLoop (args : List FArg) : Nat → M FSt Unit
  | 0 => M.bad .diverge
  | fuel + 1 => do
    let n ← Unchecked.parse
    if n = noMoreArgs then return ()
    else
      apply processArg n args
      formatLoop args fuel

/-- `parse<format_parser>` (detail/parser.hpp:250-267). -/
def formatRun (str : Str) (args : List FArg) : Run FSt Unit :=
  formatLoop args (str.length + 1) ⟨⟨Reader.ofStr str, none, 0⟩, []⟩

/-- `detail::format::format_to` (detail/format/format_to.hpp:49-58) and `emio::format_to` at compile time
(format.hpp:158-159, 176-177, 196-197). -/
def formatTo {σ : Type} [BufferImpl σ] (str : Str) (args : List FArg) : M σ Unit := fun s =>
  match make str args with
  | .ok _ vs =>
    match vs.str with
    | none => .err s .invalidFormat
    | some str => if vs.plain then writeStr str s else runOn (formatRun str args) s
  | .err _ e => .err s e
  | .bad b => .bad b

/-- `process_arg` of the `n`-th variable, found by walking along the variables (detail/parser.hpp:207-218,
detail/scan/parser.hpp:35-45). -/
def scanArgAt (n : Nat) : Nat → List ScanTy → M SSt Unit
  | _, [] => M.throw .invalidFormat
  | 0, ty :: _ => scanArg n ty
  | k + 1, _ :: tys => scanArgAt n k tys

/-- The loop of `parse<scan_parser>` (detail/parser.hpp:250-267) with the variables themselves. -/
def scanLoop (tys : List ScanTy) : Nat → M SSt Unit
  | 0 => M.bad .diverge
  | fuel + 1 => do
    let n ← scanParse
    if n = noMoreArgs then return ()
    else
      scanArgAt n n tys
      scanLoop tys fuel

/-- `detail::scan::scan_from` (detail/scan/scan_from.hpp:43-50) and `emio::scan_from` at compile time (scan.hpp:78-79). -/
def scanFrom (str : Str) (tys : List ScanTy) : M ScanIO Unit := fun io =>
  match make str (tys.map ScanTy.farg) with
  | .ok _ vs =>
    match vs.str with
    | none => .err io .invalidFormat
    | some str =>
      if vs.plain then
        match Reader.readIfMatchStr str io.inp with
        | .ok r _ => .ok { io with inp := r } ()
        | .err r e => .err { io with inp := r } e
        | .bad b => .bad b
      else
        match scanLoop tys (str.length + 1) ⟨⟨Reader.ofStr str, none, 0⟩, io.inp, io.vars⟩ with
        | .ok s _ => .ok ⟨s.inp, s.vars⟩ ()
        | .err s e => .err ⟨s.inp, s.vars⟩ e
        | .bad b => .bad b
  | .err _ e => .err io e
  | .bad b => .bad b

/-! ### Characters in memory (detail/conversion.hpp:202-316) -/

/-- The loop of `fill_n` (conversion.hpp:280-291) from position `p`; nothing for a store outside the memory. -/
def fillN (c : Char) : Nat → Nat → Str → Option Str
  | 0, _, mem => some mem
  | n + 1, p, mem => if p < mem.length then fillN c n (p + 1) (mem.set p c) else none

/-- The loop of `copy_n` (conversion.hpp:293-304) of the first `n` characters of `src` to position `p`; nothing for a
load or store outside. -/
def copyN : Nat → Str → Nat → Str → Option Str
  | 0, _, _, mem => some mem
  | _ + 1, [], _, _ => none
  | n + 1, c :: src, p, mem => if p < mem.length then copyN n src (p + 1) (mem.set p c) else none

/-- The loop of `equal_n` (conversion.hpp:306-317); nothing for a load outside. -/
def equalN : Nat → Str → Str → Option Bool
  | 0, _, _ => some true
  | n + 1, a :: as, b :: bs => if a ≠ b then some false else equalN n as bs
  | _ + 1, _, _ => none

end CompileTime

/-- What `memset` and `memcpy` do (conversion.hpp:288-289, 301-302): the characters `t` from position `p`; nothing for a store
outside the memory. -/
def memStore (t : Str) (p : Nat) (mem : Str) : Option Str :=
  if p + t.length ≤ mem.length then some (mem.take p ++ t ++ mem.drop (p + t.length)) else none

/-- `memcmp == 0` (conversion.hpp:314) of `n` characters; nothing for a load outside. -/
def memEqual (n : Nat) (a b : Str) : Option Bool :=
  if n ≤ a.length ∧ n ≤ b.length then some (a.take n == b.take n) else none

end Emio
