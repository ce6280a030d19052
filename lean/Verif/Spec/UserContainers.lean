import Verif.Model.UserContainers
import Verif.Spec.UserFormatter
/-
Specification: containers of values with a formatter of the user.
-/
namespace Emio.Spec
variable {α : Type}

/-- The formatter of the elements, as it is used by the formatter of a range or a tuple with the specification `elem` for the
elements: without one, `set_debug_format(true)` is called if there is such a function. -/
def asElement (f : ElemFormatter α) (elem : Option Str) : UserFormatter α :=
  { f.toUserFormatter with parse := f.parseWith (if elem.isNone then some true else none) }

/-- Where the specification `spec` and the closing brace follow, the formatter reads exactly these. -/
structure ReadsSpec (f : UserFormatter α) (spec : Str) : Prop where
  validates : ∀ validate ∈ f.validate, ∀ (r : Reader) (tail : Str), r.At (spec ++ '}' :: tail) →
    validate r = .ok (r.adv (spec.length + 1)) ()
  parses : ∀ (r : Reader) (tail : Str), r.At (spec ++ '}' :: tail) → ∃ s, f.parse r = .ok (r.adv (spec.length + 1)) s

/-- The brackets of ranges. -/
def rangeBrackets (curly n : Bool) (text : Str) : Str :=
  bracketed n (if curly then ['{'] else ['[']) (if curly then ['}'] else [']']) text

/-- What the least one can ask of a formatter (`Decent`) says about reading. -/
structure Orderly (f : UserFormatter α) : Prop where
  ends : ∀ r : Reader, r.Inv →
    (∃ r' e, f.check r = .err r' e) ∨ ∃ n ≤ r.rest.length, f.check r = .ok (r.adv n) ()
  agrees : ∀ validate ∈ f.validate, ∀ r r' : Reader, r.Inv → validate r = .ok r' () → ∃ s, f.parse r = .ok r' s

/-- What it says about writing. -/
def WritesOnly (f : UserFormatter α) (v : α) (errs : Err → Prop) : Prop :=
  ∀ s ops, ∃ new, (∀ op ∈ new, op.Fine) ∧
    (f.format s v ops = .ok (ops ++ new) () ∨ ∃ e, errs e ∧ f.format s v ops = .err (ops ++ new) e)

theorem decent_iff (f : UserFormatter α) (v : α) (errs : Err → Prop) :
    Decent f v errs ↔ Orderly f ∧ WritesOnly f v errs :=
  ⟨fun h => ⟨⟨h.ends, h.agrees⟩, h.writes⟩, fun h => ⟨h.1.ends, h.1.agrees, h.2⟩⟩

/-- An element for which no specification is given can be read. -/
def WithoutSpec (f : ElemFormatter α) : Prop :=
  ∀ (r : Reader) (tail : Str), r.At ('}' :: tail) → ∃ s, f.parseWith (some true) r = .ok (r.adv 1) s

/-- Types without variants. -/
inductive VariantFree : FTy → Prop
  | core (ty : CoreTy) : VariantFree (.core ty)
  | range {curly : Bool} {elem : FTy} (h : VariantFree elem) : VariantFree (.range curly elem)
  | tuple {entry : Bool} {elems : List FTy} (h : ∀ t ∈ elems, VariantFree t) : VariantFree (.tuple entry elems)
  | optional {content : FTy} (h : VariantFree content) : VariantFree (.optional content)
  | monostate : VariantFree .monostate

/-- An optional, by its content. -/
def optionalVal (enc : α → FVal) : Option α → FVal
  | none => .none
  | some v => .some (enc v)

mutual

/-- Formatters made of those of the library, by inheriting from them and by putting them in containers; with the type that is
formatted likewise, and its value for every value. -/
inductive MadeOf : {α : Type} → ElemFormatter α → FTy → (α → FVal) → Prop
  | core {α : Type} (ty : CoreTy) (arg : α → CoreArg) (typed : ∀ v, (arg v).ty = ty) :
      MadeOf (coreElem ty arg) (.core ty) (fun v => .core (arg v))
  | monostate : MadeOf monostateElem .monostate (fun _ => .monostate)
  | inherit {α β : Type} {f : ElemFormatter α} {ty : FTy} {enc : α → FVal} (made : MadeOf f ty enc) (part : β → α)
      (isConst : Bool) : MadeOf (f.inherit part isConst) ty (fun v => enc (part v))
  | range {α : Type} {f : ElemFormatter α} {ty : FTy} {enc : α → FVal} (made : MadeOf f ty enc) {curly : Bool}
      {g : ElemFormatter (List α)} (h : f.range curly = some g) :
      MadeOf g (.range curly ty) (fun vs => .range (vs.map enc))
  | optional {α : Type} {f : ElemFormatter α} {ty : FTy} {enc : α → FVal} (made : MadeOf f ty enc)
      {g : ElemFormatter (Option α)} (h : f.optional = some g) :
      MadeOf g (.optional ty) (optionalVal enc)
  | tuple {fs : TupleTypes} {tys : List FTy} {enc : TupleVal fs → List FVal} (made : EachMadeOf fs tys enc) {entry : Bool}
      {g : ElemFormatter (TupleVal fs)} (h : tupleFormatter entry fs = some g) :
      MadeOf g (.tuple entry tys) (fun v => .tuple (enc v))

/-- The same for the elements of a tuple. -/
inductive EachMadeOf : (fs : TupleTypes) → List FTy → (TupleVal fs → List FVal) → Prop
  | nil : EachMadeOf [] [] (fun _ => [])
  | cons {α : Type} {f : ElemFormatter α} {ty : FTy} {enc : α → FVal} (made : MadeOf f ty enc) {fs : TupleTypes}
      {tys : List FTy} {encs : TupleVal fs → List FVal} (others : EachMadeOf fs tys encs) :
      EachMadeOf (⟨α, f⟩ :: fs) (ty :: tys) (fun v => enc v.1 :: encs v.2)

end

end Emio.Spec
