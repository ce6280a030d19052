import Verif.Model.UserScanner
import Verif.Spec.UserFormatter
/-
Specification: what the library expects from scanners of its users, and what scanning with them does.
-/
namespace Emio.Spec
variable {V : Type}

/-- Where the specification `spec` and the closing brace follow, the scanner accepts exactly these: with `validate` if there
is one, otherwise with `parse`. -/
def Permits (sc : UserScanner V) (spec : Str) : Prop :=
  ∀ (r : Reader) (tail : Str), r.At (spec ++ '}' :: tail) →
    (∀ validate ∈ sc.validate, validate r = .ok (r.adv (spec.length + 1)) ()) ∧
    (sc.validate = none → ∃ s, sc.parse r = .ok (r.adv (spec.length + 1)) s)

/-- With the specification `spec`, behind which `behind` follows in the scan string, the scanner reads `piece` where `rest`
follows in the input, and makes `new` of the variable `old`. -/
def Obtains (sc : UserScanner V) (spec behind : Str) (old : V) (piece rest : Str) (new : V) : Prop :=
  ∀ r : Reader, r.At (spec ++ '}' :: behind) → ∃ s, sc.parse r = .ok (r.adv (spec.length + 1)) s ∧
    ∀ inp : Reader, inp.At (piece ++ rest) → sc.scan s ⟨inp, old⟩ = .ok ⟨inp.adv piece.length, new⟩ ()

/-- Likewise, but the scanner reports the error `e` behind `piece`. -/
def Declines (sc : UserScanner V) (spec behind : Str) (old : V) (piece rest : Str) (new : V) (e : Err) : Prop :=
  ∀ r : Reader, r.At (spec ++ '}' :: behind) → ∃ s, sc.parse r = .ok (r.adv (spec.length + 1)) s ∧
    ∀ inp : Reader, inp.At (piece ++ rest) → sc.scan s ⟨inp, old⟩ = .err ⟨inp.adv piece.length, new⟩ e

/-- How a scan ends: well, with an error of a scanner, or at literal text that is not in the input. -/
inductive Ending
  | success
  | failed (e : Err)
  | mismatch

/-- Scanning from the field with number `i` on, with the variables and the input there: the part of the input that is
read, the variables then, and how it ends. -/
inductive Proceeds (scs : List (UserScanner V)) (last : Str) :
    Nat → List (Str × Field) → List V → Str → Str → List V → Ending → Prop
  | done (i : Nat) (vars : List V) (rest : Str) : Proceeds scs last i [] vars (last ++ rest) last vars .success
  | missing (i : Nat) (vars : List V) (input : Str) (h : ¬ last <+: input) : Proceeds scs last i [] vars input [] vars .mismatch
  | field {i : Nat} {lit : Str} {f : Field} {segs : List (Str × Field)} {vars vars' : List V} {sc : UserScanner V} {old new : V}
      {spec piece rest used : Str} {ending : Ending} (scanner : scs[f.argument i]? = some sc)
      (holds : vars[f.argument i]? = some old) (body : f.body = spec ++ ['}'])
      (obtains : Obtains sc spec (FormatText.text ⟨segs, last⟩) old piece rest new)
      (more : Proceeds scs last (i + 1) segs (vars.set (f.argument i) new) rest used vars' ending) :
      Proceeds scs last i ((lit, f) :: segs) vars (lit ++ (piece ++ rest)) (lit ++ (piece ++ used)) vars' ending
  | stop {i : Nat} {lit : Str} {f : Field} {segs : List (Str × Field)} {vars : List V} {sc : UserScanner V} {old new : V}
      {spec piece rest : Str} {e : Err} (scanner : scs[f.argument i]? = some sc)
      (holds : vars[f.argument i]? = some old) (body : f.body = spec ++ ['}'])
      (declines : Declines sc spec (FormatText.text ⟨segs, last⟩) old piece rest new e) :
      Proceeds scs last i ((lit, f) :: segs) vars (lit ++ (piece ++ rest)) (lit ++ piece)
        (vars.set (f.argument i) new) (.failed e)
  | absent {i : Nat} {lit : Str} {f : Field} {segs : List (Str × Field)} {vars : List V} {input : Str} (h : ¬ lit <+: input) :
      Proceeds scs last i ((lit, f) :: segs) vars input [] vars .mismatch

/-- The outcome of `scan_from` that corresponds to an ending. -/
def Concludes (io : UserIO V) (used : Str) (vars : List V) (run : Run (UserIO V) Unit) : Ending → Prop
  | .success => run = .ok ⟨io.inp.adv used.length, vars⟩ ()
  | .failed e => run = .err ⟨io.inp.adv used.length, vars⟩ e
  | .mismatch => ∃ r e, run = .err ⟨r, vars⟩ e ∧ (e = .eof ∨ e = .invalidData)

/-- The least one can ask of a scanner: its functions end, do not move back in the format string, `parse` reads what
`validate` accepted, and `scan` stays in the input and reports no errors but `errs`. -/
structure DecentScanner (sc : UserScanner V) (errs : Err → Prop) : Prop where
  ends : ∀ r : Reader, r.Inv →
    (∃ r' e, sc.check r = .err r' e) ∨ ∃ n ≤ r.rest.length, sc.check r = .ok (r.adv n) ()
  agrees : ∀ validate ∈ sc.validate, ∀ r r' : Reader, r.Inv → validate r = .ok r' () → ∃ s, sc.parse r = .ok r' s
  scans : ∀ (s : sc.State) (c : Cell V), c.inp.Inv → ∃ c', c'.inp.src = c.inp.src ∧ c'.inp.Inv ∧
    (sc.scan s c = .ok c' () ∨ ∃ e, errs e ∧ sc.scan s c = .err c' e)

/-- Writing a part changes that part only. -/
structure LawfulPart {W : Type} (part : Part W V) : Prop where
  get_put : ∀ v w, part.get (part.put v w) = v
  put_put : ∀ v v' w, part.put v (part.put v' w) = part.put v w

/-- The parts of the variables. -/
def views {W : Type} (parts : List (Part W V)) (vars : List W) : List V := List.zipWith Part.get parts vars

/-- Two runs have the same result and read the same; the variables of the second are the parts of those of the first, in
which nothing else changed since `before`. -/
def Mirrors {W : Type} (parts : List (Part W V)) (before : List W) (whole : Run (UserIO W) Unit) (part : Run (UserIO V) Unit) :
    Prop :=
  match whole, part with
  | .ok a _, .ok b _ => a.inp = b.inp ∧ b.vars = views parts a.vars ∧ OnlyParts a.vars
  | .err a e, .err b e' => e = e' ∧ a.inp = b.inp ∧ b.vars = views parts a.vars ∧ OnlyParts a.vars
  | .bad b, .bad b' => b = b'
  | _, _ => False
where
  OnlyParts (vars : List W) : Prop :=
    vars.length = before.length ∧ ∀ (i : Nat) (w w' : W), before[i]? = some w → vars[i]? = some w' →
      w' = w ∨ ∃ part v, parts[i]? = some part ∧ w' = part.put v w

end Emio.Spec
