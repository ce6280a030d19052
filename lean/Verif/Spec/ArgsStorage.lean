import Verif.Model.ArgsStorage
import Verif.Spec.Values
/-
Specification for stored arguments: what a stored argument stands for when it is used.
-/
namespace Emio

/-- The value (with its type) an argument stands for that was stored when the memory was `before` and is used when it is
`now`: a scalar has the value it had, characters are the ones there are now (with the length determined before), and
an object has the value it has now. -/
inductive ArgRef.StandsFor (before now : Memory) : ArgRef → FTy × FVal → Prop
  | scalar {addr : Nat} {a : CoreArg} (there : before addr = some (.scalar a)) :
      StandsFor before now (.scalar addr a.ty) (.core a.ty, .core a)
  | view {addr : Nat} {front text rest : Str} (there : now addr = some (.chars (front ++ text ++ rest))) :
      StandsFor before now (.view addr front.length text.length) (.core .string, .core (.string text))
  | cstr {addr : Nat} {front text rest front' text' rest' : Str}
      (there : before addr = some (.chars (front ++ text ++ '\x00' :: rest))) (terminated : '\x00' ∉ text)
      (later : now addr = some (.chars (front' ++ text' ++ rest'))) (same : front'.length = front.length)
      (length : text'.length = text.length) :
      StandsFor before now (.cstr addr front.length) (.core .string, .core (.string text'))
  | object {addr : Nat} {t : FTy} {v : FVal} (there : now addr = some (.value v)) : StandsFor before now (.object addr t) (t, v)

/-- What the argument refers to is not there anymore. -/
inductive ArgRef.Dangles (before now : Memory) : ArgRef → Prop
  | view {addr off len : Nat} (gone : now addr = none) : Dangles before now (.view addr off len)
  | cstr {addr : Nat} {front text rest : Str} (there : before addr = some (.chars (front ++ text ++ '\x00' :: rest)))
      (terminated : '\x00' ∉ text) (gone : now addr = none) : Dangles before now (.cstr addr front.length)
  | object {addr : Nat} {t : FTy} (gone : now addr = none) : Dangles before now (.object addr t)

end Emio
