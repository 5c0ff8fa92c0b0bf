import Verif.Model.Util
import Verif.Model.Files
/- What `json.NewEncoder(w).Encode(v)` writes (content.go:271), for jsoniter's `ConfigCompatibleWithStandardLibrary` (util.go:17): the
values that Go programs send, and their text. Encoders of their own (`MarshalJSON`), pointers that are followed, `omitempty` and values
that cannot be encoded are not modelled. -/
namespace Water

/-- A Go value as the encoder sees it: `nil`; booleans; integers; floating-point numbers, as their text (`strconv.AppendFloat`); strings;
slices; structs, as the names and values of their fields; maps such as `water.H`, as keys and values in the order of the keys. -/
inductive GVal where
  | nil
  | bool (b : Bool)
  | int (i : Int)
  | float (text : Str)
  | string (s : Str)
  | list (l : List GVal)
  | fields (l : List (Str × GVal))
  | map (l : List (Str × GVal))

/-- The escape of a byte that is not written as it is: `\"`, `\\`, `\n`, `\r`, `\t`, or `\u00xx`. -/
def jsonEsc (c : UInt8) : Str :=
  if c = 34 ∨ c = 92 then [92, c]
  else if c = 10 then b!"\\n"
  else if c = 13 then b!"\\r"
  else if c = 9 then b!"\\t"
  else b!"\\u00" ++ [hexDigit (c.toNat / 16), hexDigit (c.toNat % 16)]

/-- jsoniter's `htmlSafeSet`: the ASCII bytes that are written as they are. -/
def jsonSafe (c : UInt8) : Bool := 32 ≤ c && c != 34 && c != 92 && c != 38 && c != 60 && c != 62

/-- `Stream.WriteStringWithHTMLEscaped` between the quotes, for string values and the keys of maps. `fuel` bounds the number of runes. -/
def jsonStrF : Nat → Str → Str
  | 0, _ => []
  | _ + 1, [] => []
  | f + 1, c :: rest =>
    if c < 0x80 then (if jsonSafe c then [c] else jsonEsc c) ++ jsonStrF f rest
    else
      let (r, k) := decodeRune (c :: rest)
      if r = 0xFFFD ∧ k = 1 then b!"\\ufffd" ++ jsonStrF f rest
      else if r = 0x2028 ∨ r = 0x2029 then b!"\\u202" ++ [hexDigit (r % 16)] ++ jsonStrF f ((c :: rest).drop k)
      else (c :: rest).take k ++ jsonStrF f ((c :: rest).drop k)

/-- A string in quotes. -/
def jsonString (s : Str) : Str := 34 :: jsonStrF s.length s ++ [34]

/-- `Stream.WriteString`, for the names of fields: only quotes, backslashes and control characters are escaped. -/
def jsonName (s : Str) : Str := 34 :: s.flatMap (fun c => if 32 ≤ c && c != 34 && c != 92 then [c] else jsonEsc c) ++ [34]

mutual
/-- The text of a value (content.go:271). -/
def GVal.encode : GVal → Str
  | .nil => b!"null"
  | .bool b => if b then b!"true" else b!"false"
  | .int i => itoa i
  | .float t => t
  | .string s => jsonString s
  | .list l => 91 :: elementsJson l ++ [93]
  | .fields l => 123 :: fieldsJson l ++ [125]
  | .map l => 123 :: entriesJson l ++ [125]

/-- The elements of a slice, with commas between them. -/
def elementsJson : List GVal → Str
  | [] => []
  | v :: l => v.encode ++ (match l with | [] => [] | _ :: _ => 44 :: elementsJson l)

/-- The fields of a struct. -/
def fieldsJson : List (Str × GVal) → Str
  | [] => []
  | (k, v) :: l => jsonName k ++ 58 :: v.encode ++ (match l with | [] => [] | _ :: _ => 44 :: fieldsJson l)

/-- The entries of a map. -/
def entriesJson : List (Str × GVal) → Str
  | [] => []
  | (k, v) :: l => jsonString k ++ 58 :: v.encode ++ (match l with | [] => [] | _ :: _ => 44 :: entriesJson l)
end

/-- `Encoder.Encode` (content.go:271): the text, and a newline. -/
def encodeJson (v : GVal) : Str := v.encode ++ [10]

end Water
