import Verif.Spec.Scan
/-
Specification: a simple interpreter for scan strings.  It works on the parts of a scan string and on the input as a list of
characters, and says for every input what is read, what is left, which error there is, and where the behaviour is
undefined.
-/
namespace Emio.Spec

/-! ### Numbers -/

/-- How reading a number ends: with the rest of the text and the number, with an error, or the behaviour is undefined. -/
inductive NumEnd
  | value (rest : Str) (v : Int)
  | error (e : Err)
  | undefined
  deriving DecidableEq

/-- The value of a character as a digit of base `b`: digits and letters, and in bases above ten `:` to `@` as well. -/
def digitOf (b : Nat) (c : Char) : Option Nat :=
  match symbolValue b c with
  | some d => some d
  | none => if isColonToAt c = true ∧ c.toNat - 48 < b then some (c.toNat - 48) else none

/-- The digits a text starts with. -/
def leadingDigits (b : Nat) : Str → List Nat
  | [] => []
  | c :: s => match digitOf b c with
    | some d => d :: leadingDigits b s
    | none => []

/-- Modulo `n`, the number becomes smaller at some digit. -/
def wraps (n b : Nat) (ds : List Nat) : Bool :=
  (List.range ds.length).any fun k => denote b (ds.take (k + 1)) % n < denote b (ds.take k) % n

/-- Digits of base `b`, for a 32 or 64 bit type: signed numbers that are not representable are undefined; unsigned
numbers are computed modulo 2^32 or 2^64, and an error if that is noticed. -/
def readDigits (t : IntTy) (b : Nat) (neg : Bool) (s : Str) : NumEnd :=
  let ds := leadingDigits b s
  let rest := s.drop ds.length
  if s = [] then .error .eof
  else if ds = [] then .error .invalidData
  else if t.signed = true then
    let v : Int := if neg then -denote b ds else denote b ds
    if t.Holds v then .value rest v else .undefined
  else if neg = true ∨ wraps (2 ^ t.bits) b ds = true then .error .outOfRange
  else .value rest (denote b ds % 2 ^ t.bits : Nat)

/-- Take a sign off. -/
def splitSign : Str → Bool × Str
  | '+' :: s => (false, s)
  | '-' :: s => (true, s)
  | s => (false, s)

/-- `parse_int`: sign and digits, computed with at least 32 bit. -/
def parseReference (t : IntTy) (base : Int) (s : Str) : NumEnd :=
  if s = [] then .error .eof
  else if ¬ (2 ≤ base ∧ base ≤ 36) then .error .invalidArgument
  else
    match readDigits t.upcast base.toNat (splitSign s).1 (splitSign s).2 with
    | .value rest v => if t.Holds v then .value rest v else .error .outOfRange
    | .error e => .error e
    | .undefined => .undefined

/-- Behind the mark of a base: no sign, and not the end. -/
def behindMark (b : Nat) : Str → Except Err (Nat × Str)
  | [] => .error .eof
  | c :: s => if c = '+' ∨ c = '-' then .error .invalidData else .ok (b, c :: s)

/-- `#` without a type: the base is taken from the mark, which may be missing. -/
def anyMark : Str → Except Err (Nat × Str)
  | [] => .error .eof
  | '0' :: c :: s =>
    if c = 'b' ∨ c = 'B' then behindMark 2 s
    else if c = 'x' ∨ c = 'X' then behindMark 16 s
    else behindMark 8 (c :: s)
  | s => .ok (10, s)

/-- `#` with a type: the mark of the base is required. -/
def requiredMark (b : Nat) : Str → Except Err (Nat × Str)
  | [] => .error .eof
  | ['0'] => .error .eof
  | '0' :: c :: s =>
    if b = 8 then behindMark 8 (c :: s)
    else if c ∈ (if b = 2 then ['b', 'B'] else ['x', 'X']) then behindMark b s
    else .error .invalidData
  | _ => .error .invalidData

/-- The base of the number and the text behind its mark, for a field. -/
def fieldBase (sp : ScanSpec) (s : Str) : Except Err (Nat × Str) :=
  if sp.alt = true ∧ sp.type = none then anyMark s
  else if sp.alt = true ∧ typeBase sp.type ≠ 10 then requiredMark (typeBase sp.type) s
  else .ok (typeBase sp.type, s)

/-- The number of a field, for a 32 or 64 bit type: sign, mark of the base, digits. -/
def fieldNumber (t : IntTy) (sp : ScanSpec) (s : Str) : NumEnd :=
  if s = [] then .error .eof
  else
    match fieldBase sp (splitSign s).2 with
    | .error e => .error e
    | .ok (b, s') => readDigits t b (splitSign s).1 s'

/-! ### Fields -/

/-- How reading ends: with the rest of the input and what was read, at an error with what is left of the input and what
was stored until then, or the behaviour is undefined. -/
inductive ScanEnd (α : Type)
  | done (rest : Str) (a : α)
  | stop (rest : Str) (e : Err) (a : α)
  | undefined
  deriving DecidableEq

/-- An integer without width: a number of at least 32 bit, that must then be representable.  With a width, the number must
be all of the characters. -/
def integerField (t : IntTy) (sp : ScanSpec) (old : ScanVal) (s : Str) : ScanEnd ScanVal :=
  match sp.size with
  | none =>
    match fieldNumber t.upcast sp s with
    | .undefined => .undefined
    | .error e => .stop s e old
    | .value rest v => if t.Holds v then .done rest (.int v) else .stop rest .outOfRange old
  | some w =>
    if s.length < w then .stop s .eof old
    else
      match fieldNumber t.upcast sp (s.take w) with
      | .undefined => .undefined
      | .error e => .stop s e old
      | .value rest v =>
        if rest ≠ [] then .stop s .invalidData (if t.upcast = t then .int v else old)
        else if t.Holds v then .done (s.drop w) (.int v)
        else .stop (s.drop w) .outOfRange old

/-- A character. -/
def charField (old : ScanVal) : Str → ScanEnd ScanVal
  | [] => .stop [] .eof old
  | c :: s => .done s (.char c)

/-- The position of the first occurrence. -/
def firstOccurrence (lit s : Str) : Option Nat := (List.range (s.length + 1)).find? fun k => lit.isPrefixOf (s.drop k)

/-- The number of characters that agree. -/
def agreeing : Str → Str → Nat
  | a :: s, b :: t => if a = b then agreeing s t + 1 else 0
  | _, _ => 0

/-- The search for a text with braces.  It goes on behind the first character that does not agree, so that occurrences are
missed.  If something follows in the scan string (`more`), the text is not found at the end of the input. -/
def hunt (lit : Str) (more : Bool) : Nat → Str → Option Nat
  | _, [] => none
  | skip + 1, _ :: s => (hunt lit more skip s).map (· + 1)
  | 0, c :: s =>
    if lit <+: c :: s then if more = true ∧ lit.length = (c :: s).length then none else some 0
    else (hunt lit more (agreeing lit (c :: s)) s).map (· + 1)

/-- A brace. -/
def isBrace (c : Char) : Bool := c = '{' || c = '}'

/-- A string: `lit` is the literal text behind the field, `more` says whether anything comes behind that text.  Without
width, everything is read if nothing follows.  If no brace is in the text behind the field, its first occurrence ends the
string, or the end of the input.  Otherwise only the text from the first brace on is looked for. -/
def stringField (sp : ScanSpec) (lit : Str) (more : Bool) (old : ScanVal) (s : Str) : ScanEnd ScanVal :=
  let upTo (k : Nat) : ScanEnd ScanVal := .done (s.drop k) (.str (s.take k))
  match sp.size with
  | some w => if s.length < w then .stop s .eof old else upTo w
  | none =>
    if lit = [] ∧ more = false then upTo s.length
    else if lit.any isBrace = false then
      if s = [] then .stop s .eof old else upTo ((firstOccurrence lit s).getD s.length)
    else
      match hunt (lit.dropWhile fun c => !isBrace c) more 0 s with
      | some k => upTo k
      | none => .stop s .invalidData old

/-- A field for a variable of the type. -/
def readField (ty : ScanTy) (sp : ScanSpec) (lit : Str) (more : Bool) (old : ScanVal) (s : Str) : ScanEnd ScanVal :=
  match ty with
  | .char => charField old s
  | .int t => integerField t sp old s
  | .string => stringField sp lit more old s

/-! ### Scan strings -/

/-- Literal text, cut behind every brace. -/
def textPieces (pend : Str) : Str → List Str
  | [] => if pend = [] then [] else [pend]
  | c :: s => if isBrace c then (pend ++ [c]) :: textPieces [] s else textPieces (pend ++ [c]) s

/-- The pieces must come one after the other.  The input is left in front of the first one that does not. -/
def matchPieces : List Str → Str → ScanEnd Unit
  | [], s => .done s ()
  | p :: ps, s =>
    if p <+: s then matchPieces ps (s.drop p.length)
    else .stop s (if s.length < p.length then .eof else .invalidData) ()

/-- A scan string, part by part: literal text before each field, the field, and literal text at the end.  `i` is the number
of fields so far; `tail` is text at the end of the scan string that is ignored. -/
def scanReference (tys : List ScanTy) (last tail : Str) :
    Nat → List (Str × ScanHole) → Str → List ScanVal → ScanEnd (List ScanVal)
  | _, [], s, vars =>
    match matchPieces (textPieces [] last) s with
    | .done rest _ => .done rest vars
    | .stop rest e _ => .stop rest e vars
    | .undefined => .undefined
  | i, (lit, h) :: segs, s, vars =>
    match matchPieces (textPieces [] lit) s with
    | .stop rest e _ => .stop rest e vars
    | .undefined => .undefined
    | .done s _ =>
      let n := h.field.argument i
      match tys[n]?, vars[n]? with
      | some ty, some old =>
        match readField ty h.sp (following last segs) (segs ≠ [] ∨ tail ≠ []) old s with
        | .done rest v => scanReference tys last tail (i + 1) segs rest (vars.set n v)
        | .stop rest e v => .stop rest e (vars.set n v)
        | .undefined => .undefined
      | _, _ => .undefined

/-- The outcome of a call on the reader and the variables. -/
def ScanEnd.run (src : Str) : ScanEnd (List ScanVal) → Run ScanIO Unit
  | .done rest vars => .ok ⟨⟨src, src.length - rest.length⟩, vars⟩ ()
  | .stop rest e vars => .err ⟨⟨src, src.length - rest.length⟩, vars⟩ e
  | .undefined => .bad .ub

/-- `"x={:#},{:s}!"`. -/
example : scanReference [.int u8, .string] ['!'] [] 0
      [("x=".toList, ⟨[], some { alt := true }⟩), ([','], ⟨[], some { type := 's' }⟩)] "x=0x1f,ab!cd".toList
      [.int 0, .str []] = .done "cd".toList [.int 31, .str "ab".toList] ∧
    scanReference [.int u8, .string] ['!'] [] 0
      [("x=".toList, ⟨[], some { alt := true }⟩), ([','], ⟨[], some { type := 's' }⟩)] "x=0x1f2,ab!cd".toList
      [.int 0, .str []] = .stop ",ab!cd".toList .outOfRange [.int 0, .str []] := by decide +kernel

end Emio.Spec
