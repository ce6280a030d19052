import Verif.Model.Reader
import Verif.Spec.Values
/-
Lists of numbers as they are written by the formatter of ranges, and a small program of a user of `reader` that reads them.
-/
namespace Emio.Spec

/-- The bases of the types for integers. -/
def listBase : Option Char → Option Nat
  | none => some 10
  | some 'd' => some 10
  | some 'x' => some 16
  | some 'X' => some 16
  | some 'b' => some 2
  | some 'B' => some 2
  | some 'o' => some 8
  | _ => none

/-- Numbers up to a closing bracket: `parse_int(base)`, then `read_char()`; if that is not the bracket it is the comma, and a
blank follows.  `steps` is how often to go on at most. -/
def readInts (ty : IntTy) (base : Nat) (close : Char) : (steps : Nat) → M Reader (List Int)
  | 0 => M.throw .eof
  | steps + 1 => do
    let n ← Reader.parseInt ty base
    let c ← Reader.readChar
    if c = close then pure [n]
    else do
      let _ ← Reader.readIfMatchChar ' '
      let ns ← readInts ty base close steps
      pure (n :: ns)

/-- A list: `read_if_match_char(open)`; nothing if `peek()` gives the closing bracket, and numbers otherwise. -/
def readList (ty : IntTy) (base : Nat) (opening close : Char) (steps : Nat) : M Reader (List Int) := do
  let _ ← Reader.readIfMatchChar opening
  let c ← Reader.peek
  if c = close then do
    let _ ← Reader.readChar
    pure []
  else readInts ty base close steps

/-- The list as a value of the library. -/
def intList (ty : IntTy) (ns : List Int) : FVal := .range (ns.map fun n => .core (.int ty n))

/-- Entries of a map up to the closing bracket: `parse_int()`, the colon and the blank, `parse_int()`, then as above. -/
def readEntries (kt vt : IntTy) : (steps : Nat) → M Reader (List (Int × Int))
  | 0 => M.throw .eof
  | steps + 1 => do
    let k ← Reader.parseInt kt 10
    let _ ← Reader.readIfMatchStr ": ".toList
    let v ← Reader.parseInt vt 10
    let c ← Reader.readChar
    if c = '}' then pure [(k, v)]
    else do
      let _ ← Reader.readIfMatchChar ' '
      let more ← readEntries kt vt steps
      pure ((k, v) :: more)

/-- A map. -/
def readMap (kt vt : IntTy) (steps : Nat) : M Reader (List (Int × Int)) := do
  let _ ← Reader.readIfMatchChar '{'
  let c ← Reader.peek
  if c = '}' then do
    let _ ← Reader.readChar
    pure []
  else readEntries kt vt steps

/-- The map as a value of the library. -/
def intMap (kt vt : IntTy) (entries : List (Int × Int)) : FVal :=
  .range (entries.map fun e => .tuple [.core (.int kt e.1), .core (.int vt e.2)])

end Emio.Spec
