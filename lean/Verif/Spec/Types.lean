import Verif.Model.Select
/-
Specification: in which ways a type can be formatted (docs/API.md, "Formatter": core types and what can be represented by
them, enumerations, `format_as`, ranges, tuples, optional, variant, exceptions, paths, monostate).
-/
namespace Emio.Spec

mutual

/-- `f` is a way to format the type `t`. -/
def Way : CppTy → FTy → Prop
  | .bool, f => f = .core .bool
  | .char, f => f = .core .char
  | .integer signed bits, f => f = .core (.int ⟨signed, if bits ≤ 32 then 32 else 64⟩)
  | .floating bytes, f => bytes ≤ 8 ∧ f = .core .double
  | .nullptr, f => f = .core .pointer
  | .voidPointer, f => f = .core .pointer
  | .charPointer, f => f = .core .string
  | .pointer, _ => False
  | .stringView, f => f = .core .string
  | .array t, f => (t = .char ∧ f = .core .string) ∨ (t ≠ .char ∧ ∃ g, Way t g ∧ f = .range false g)
  | .enumeration isScoped u fa, f => (isScoped = false ∧ Way u f) ∨ WayAs fa f
  | .optional t, f => ∃ g, Way t g ∧ f = .optional g
  | .variant ts, f => ∃ gs, Ways ts gs ∧ f = .variant gs
  | .path, f => f = .core .string
  | .monostate, f => f = .monostate
  | .cls text exception fa elems members, f =>
    (text = true ∧ f = .core .string) ∨ (exception = true ∧ f = .core .string) ∨ WayAs fa f ∨ (text = false ∧ WayElems elems f) ∨
      ∃ gs, WayMembers members gs ∧ f = .tuple false gs

/-- As what `format_as` returns. -/
def WayAs : FormatAs → FTy → Prop
  | .no, _ => False
  | .value t, f => Way t f
  | .ref t, f => Way t f

/-- As a sequence, a set or a map. -/
def WayElems : Elems → FTy → Prop
  | .no, _ => False
  | .seq t, f => ∃ g, Way t g ∧ f = .seq g
  | .set t, f => ∃ g, Way t g ∧ f = .set g
  | .map k v, f => ∃ g h, Way k g ∧ Way v h ∧ f = .map g h

def WayMembers : Members → List FTy → Prop
  | .no, _ => False
  | .of ts, fs => Ways ts fs

def Ways : List CppTy → List FTy → Prop
  | [], fs => fs = []
  | t :: ts, fs => ∃ g gs, Way t g ∧ Ways ts gs ∧ fs = g :: gs

end

/-- Something a `string_view` can be made from, and nothing else. -/
def JustText : CppTy → Prop
  | .charPointer | .stringView | .cls true false .no _ .no => True
  | .array t => t = .char
  | _ => False

/-- Is there one? -/
def _root_.Emio.FormatAs.given : FormatAs → Bool
  | .no => false
  | _ => true
def _root_.Emio.Elems.given : Elems → Bool
  | .no => false
  | _ => true
def _root_.Emio.Members.given : Members → Bool
  | .no => false
  | _ => true

mutual

/-- Types of which all parts can be formatted in one way at most, and functions `format_as` that return no references
other than those to text. -/
def OneWay : CppTy → Prop
  | .array t => OneWay t
  | .enumeration isScoped u fa => (isScoped = true ∨ fa.given = false) ∧ OneWay u ∧ OneWayAs fa
  | .optional t => OneWay t
  | .variant ts => OneWays ts
  | .cls text exception fa elems members =>
    [text, exception, fa.given, !text && elems.given, members.given].count true ≤ 1 ∧ OneWayAs fa ∧ OneWayElems elems ∧ OneWayMembers members
  | _ => True

def OneWayAs : FormatAs → Prop
  | .no => True
  | .value t => OneWay t
  | .ref t => JustText t

def OneWayElems : Elems → Prop
  | .no => True
  | .seq t => OneWay t
  | .set t => OneWay t
  | .map k v => OneWay k ∧ OneWay v

def OneWayMembers : Members → Prop
  | .no => True
  | .of ts => OneWays ts

def OneWays : List CppTy → Prop
  | [] => True
  | t :: ts => OneWay t ∧ OneWays ts

end

/-! Some types. -/

def CppTy.int : CppTy := .integer true 32
def CppTy.double : CppTy := .floating 8
/-- `std::string`: one can iterate over it as well. -/
def CppTy.stdString : CppTy := .cls true false .no (.seq .char) .no
/-- `std::vector<T>`, but not of `bool`. -/
def CppTy.vector (t : CppTy) : CppTy := .cls false false .no (.seq t) .no
def CppTy.stdMap (k v : CppTy) : CppTy := .cls false false .no (.map k v) .no
def CppTy.pair (a b : CppTy) : CppTy := .cls false false .no .no (.of [a, b])

end Emio.Spec
