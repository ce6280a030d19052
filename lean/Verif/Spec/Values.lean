import Verif.Model.Values
import Verif.Spec.Template
/-
Specification: ranges, tuples, optionals and variants, the specifications they take, and the text they are rendered to.
-/
namespace Emio.Spec

/-- The value is of the type. -/
inductive HasType : FVal → FTy → Prop
  | core {a : CoreArg} (valid : ValidArg a) : HasType (.core a) (.core a.ty)
  | range {curly : Bool} {t : FTy} {vs : List FVal} (each : ∀ v ∈ vs, HasType v t) : HasType (.range vs) (.range curly t)
  | tuple {entry : Bool} {ts : List FTy} {vs : List FVal} (number : vs.length = ts.length)
      (each : ∀ (i : Nat) (v : FVal) (t : FTy), vs[i]? = some v → ts[i]? = some t → HasType v t) : HasType (.tuple vs) (.tuple entry ts)
  | none {t : FTy} : HasType .none (.optional t)
  | some {t : FTy} {v : FVal} (content : HasType v t) : HasType (.some v) (.optional t)
  | monostate : HasType .monostate .monostate
  | variant {ts : List FTy} {t : FTy} {v : FVal} (mem : t ∈ ts) (content : HasType v t) :
      HasType (.variant t v) (.variant ts)
  | valueless {ts : List FTy} : HasType .valueless (.variant ts)

/-- The specification of a range or a tuple: `n`, and `:` with the specification of the elements. -/
def rangeSpec (n : Bool) (elem : Option Str) : Str :=
  (if n then ['n'] else []) ++ (match elem with | none => [] | some e => ':' :: e)

example : rangeSpec true (some "x".toList) = "n:x".toList ∧ rangeSpec false none = [] ∧
    rangeSpec false (some []) = ":".toList := by decide

/-- The type takes the specification (the text between `{:` and `}`).  Elements for which no specification is given, and
the content of a variant, take the empty one. -/
inductive Takes : FTy → Str → Prop
  | core {t : CoreTy} {sp : SpecText} (wf : sp.WellFormed) (fits : sp.Fits) (allows : CoreTy.Allows t sp) :
      Takes (.core t) sp.text
  | range {curly : Bool} {t : FTy} {n : Bool} {elem : Option Str} (each : Takes t (elem.getD [])) :
      Takes (.range curly t) (rangeSpec n elem)
  | tuple {entry : Bool} {ts : List FTy} {n : Bool} {elem : Option Str} (each : ∀ t ∈ ts, Takes t (elem.getD []))
      (nonempty : elem ≠ none → ts ≠ []) : Takes (.tuple entry ts) (rangeSpec n elem)
  | optional {t : FTy} {s : Str} (content : Takes t s) : Takes (.optional t) s
  | monostate : Takes .monostate []
  | variant {ts : List FTy} (each : ∀ t ∈ ts, Takes t []) : Takes (.variant ts) []

/-- Brackets, unless `n`. -/
def bracketed (n : Bool) (opening closing text : Str) : Str := if n then text else opening ++ text ++ closing

/-- Characters and strings that are elements of something else are quoted, unless they have a specification. -/
def quotedSpec : CoreTy → SpecText
  | .char => { type := some '?' }
  | .string => { type := some '?' }
  | _ => {}

/-- `Renders R t v q s text`: a value `v` of type `t` with specification `s` is rendered as `text`; with `q` characters
and strings are quoted.  `R` tells how values of core types are rendered. -/
inductive Renders (R : CoreArg → SpecText → Str → Prop) : FTy → FVal → Bool → Str → Str → Prop
  | core {a : CoreArg} {sp : SpecText} {text : Str} (wf : sp.WellFormed) (fits : sp.Fits)
      (allows : CoreTy.Allows a.ty sp) (h : R a sp text) : Renders R (.core a.ty) (.core a) false sp.text text
  | quoted {a : CoreArg} {text : Str} (h : R a (quotedSpec a.ty) text) :
      Renders R (.core a.ty) (.core a) true [] text
  | range {curly : Bool} {t : FTy} {vs : List FVal} {texts : List Str} {q n : Bool} {elem : Option Str}
      (number : texts.length = vs.length)
      (each : ∀ (i : Nat) (v : FVal) (text : Str), vs[i]? = some v → texts[i]? = some text →
        Renders R t v elem.isNone (elem.getD []) text) :
      Renders R (.range curly t) (.range vs) q (rangeSpec n elem)
        (bracketed n (if curly then ['{'] else ['[']) (if curly then ['}'] else [']'])
          ([',', ' '].intercalate texts))
  | tuple {ts : List FTy} {vs : List FVal} {texts : List Str} {q n : Bool} {elem : Option Str}
      (number : texts.length = vs.length)
      (each : ∀ (i : Nat) (t : FTy) (v : FVal) (text : Str), ts[i]? = some t → vs[i]? = some v →
        texts[i]? = some text → Renders R t v elem.isNone (elem.getD []) text) :
      Renders R (.tuple false ts) (.tuple vs) q (rangeSpec n elem)
        (bracketed n ['('] [')'] ([',', ' '].intercalate texts))
  /-- A pair of a map: `key: value`. -/
  | entry {ts : List FTy} {vs : List FVal} {texts : List Str} {q n : Bool} {elem : Option Str}
      (number : texts.length = vs.length)
      (each : ∀ (i : Nat) (t : FTy) (v : FVal) (text : Str), ts[i]? = some t → vs[i]? = some v →
        texts[i]? = some text → Renders R t v elem.isNone (elem.getD []) text) :
      Renders R (.tuple true ts) (.tuple vs) q (rangeSpec n elem) ([':', ' '].intercalate texts)
  | none {t : FTy} {q : Bool} {s : Str} : Renders R (.optional t) .none q s ['n', 'o', 'n', 'e']
  | some {t : FTy} {v : FVal} {q : Bool} {s text : Str} (content : Renders R t v false s text) :
      Renders R (.optional t) (.some v) q s
        (['o', 'p', 't', 'i', 'o', 'n', 'a', 'l', '('] ++ text ++ [')'])
  | monostate {q : Bool} : Renders R .monostate .monostate q [] ['m', 'o', 'n', 'o', 's', 't', 'a', 't', 'e']
  | variant {ts : List FTy} {t : FTy} {v : FVal} {q : Bool} {text : Str} (mem : t ∈ ts)
      (content : Renders R t v true [] text) : Renders R (.variant ts) (.variant t v) q []
        (['v', 'a', 'r', 'i', 'a', 'n', 't', '('] ++ text ++ [')'])
  | valueless {ts : List FTy} {q : Bool} : Renders R (.variant ts) .valueless q []
        "variant(valueless by exception)".toList

/-- There is no tuple, pair or map, except in a variant. -/
def NoTuple : FTy → Prop
  | .core _ => True
  | .range _ t => NoTuple t
  | .tuple _ _ => False
  | .optional t => NoTuple t
  | .monostate => True
  | .variant _ => True

/-! ### Format strings -/

/-- The format string `{:s}`. -/
def fieldText (s : Str) : Str := '{' :: ':' :: (s ++ ['}'])

/-- How an element is formatted alone: `{:spec}`; without a specification `{:?}` for characters and strings, and `{}`
for everything else. -/
def elementField : FTy → Option Str → Str
  | _, some s => fieldText s
  | .core .char, none => "{:?}".toList
  | .core .string, none => "{:?}".toList
  | _, none => "{}".toList

/-- The format string can be used with these values. -/
structure FormatText.SuitsValues (t : FormatText) (args : List (FTy × FVal)) : Prop where
  /-- At most 128 arguments. -/
  number : args.length ≤ 128
  typed : ∀ a ∈ args, HasType a.2 a.1
  digits : ∀ f ∈ t.fields, ∀ c ∈ f.idx, c.isDigit
  /-- Numbers are given always or never. -/
  mode : t.Automatic ∨ t.Explicit
  /-- Exactly the arguments there are. -/
  arguments : ∀ k, k ∈ t.arguments ↔ k < args.length
  /-- Every field refers to an argument whose type takes the specification. -/
  taken : ∀ (i : Nat) (f : Field), t.fields[i]? = some f → ∃ a, args[f.argument i]? = some a ∧
    ∃ s, f.body = s ++ ['}'] ∧ (f.colon = false → s = []) ∧ Takes a.1 s

/-- The texts the fields are replaced by: what `{:spec}` makes of the arguments. -/
def FormatText.AloneTexts (t : FormatText) (args : List (FTy × FVal)) (texts : List Str) : Prop :=
  texts.length = t.fields.length ∧
  ∀ (i : Nat) (f : Field) (text : Str), t.fields[i]? = some f → texts[i]? = some text →
    ∃ a, args[f.argument i]? = some a ∧ formatStr ('{' :: ':' :: f.body) [a.2.farg a.1] = .ok () text

/-- Arguments with tuples are used at the very end only. -/
def FormatText.TuplesLast (t : FormatText) (args : List (FTy × FVal)) : Prop :=
  ∀ (i : Nat) (f : Field) (a : FTy × FVal), t.fields[i]? = some f → args[f.argument i]? = some a →
    ¬ NoTuple a.1 → i + 1 = t.fields.length ∧ t.last = []

end Emio.Spec
