import Verif.Model.Reader
import Verif.Model.Writer
import Verif.Spec.Numeral
/-
Data written field by field with a separator, as for tables or addresses: two small programs of a user of `writer` and
`reader`.
-/
namespace Emio.Spec

/-- What kind of data a field holds: a number of an integer type in a base, or a text. -/
inductive ItemKind
  | number (ty : IntTy) (base : Nat) (upper : Bool)
  | text

/-- The data of a field. -/
inductive Item
  | number (n : Int)
  | text (s : Str)
  deriving DecidableEq, Repr

/-- The data is of the kind, and the separator cannot be taken for a part of it. -/
def Item.Fits (sep : Char) : ItemKind → Item → Prop
  | .number ty base _, .number n => ty.Std ∧ ty.Holds n ∧ 2 ≤ base ∧ base ≤ 36 ∧ symbolValue base sep = none
  | .text, .text s => sep ∉ s
  | _, _ => False

/-- Write a field: `write_int(n, {.base, .upper_case})` or `write_str(s)`. -/
def Item.write {σ : Type} [BufferImpl σ] : ItemKind → Item → M σ Unit
  | .number ty base upper, .number n => writeInt ty n base upper
  | _, .number _ => pure ()
  | _, .text s => writeStr s

/-- Write a record: each field with the separator behind it. -/
def writeRecord {σ : Type} [BufferImpl σ] (sep : Char) : List (ItemKind × Item) → M σ Unit
  | [] => pure ()
  | (kind, item) :: more => do
    item.write kind
    writeChar sep
    writeRecord sep more

/-- Read a field: `parse_int(base)` and `read_if_match_char(sep)`, or `read_until_char(sep)`. -/
def Item.read (sep : Char) : ItemKind → M Reader Item
  | .number ty base _ => do
    let n ← Reader.parseInt ty base
    let _ ← Reader.readIfMatchChar sep
    pure (.number n)
  | .text => do
    let s ← Reader.readUntilChar sep {}
    pure (.text s)

/-- Read a record of which only the kinds of the fields are known. -/
def readRecord (sep : Char) : List ItemKind → M Reader (List Item)
  | [] => pure []
  | kind :: more => do
    let item ← Item.read sep kind
    let items ← readRecord sep more
    pure (item :: items)

/-- The text of a record. -/
def recordText (sep : Char) : List (ItemKind × Item) → Str
  | [] => []
  | (.number _ base upper, .number n) :: more => intNumeral upper base n ++ sep :: recordText sep more
  | (_, .number _) :: more => sep :: recordText sep more
  | (_, .text s) :: more => s ++ sep :: recordText sep more

end Emio.Spec
