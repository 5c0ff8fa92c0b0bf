import Verif.Model.Json
import Verif.Model.BodyBind
import Verif.Spec.Json
/- Structs and JSON: what `JSON` sends for a Go value of a given type (content.go:268-276), and what `jsonBinding.Bind` (binding/json.go:20-32)
does to a target when the text says a given tree; both by jsoniter's `ConfigCompatibleWithStandardLibrary`, version 1.1.10 (go.mod:7). How
the text is read is not modelled here: `Denotes` says what it says. Of the types there are integers, booleans, strings, pointers, slices and
structs without embedded fields; `[]byte`, floating-point numbers, times, maps, arrays and the option `string` of a tag are not modelled,
and an integer that does not fit is always an error. -/
namespace Water
open Spec

/-- The name of a field in JSON, if it has one (jsoniter's `describeStruct` and `calcFieldNames`): what stands before the comma in the tag, or
the name of the field; no name if the field is not exported or the tag is `-`. -/
def jsonKey (fd : Field) : Option Str :=
  if fd.tag b!"json" = b!"-" then none
  else if !fd.exported then none
  else if (head (fd.tag b!"json") 44).1 = [] then some fd.name
  else some (head (fd.tag b!"json") 44).1

/-- The option `omitempty` (jsoniter's `processTags`); more than one option is not modelled. -/
def omitsEmpty (fd : Field) : Bool := (head (fd.tag b!"json") 44).2 == b!"omitempty"

/-- `IsEmpty` of jsoniter's encoders: false, 0, "", nil, and a slice without elements. -/
def emptyVal : Val → Bool
  | .zero => true
  | .int i => i == 0
  | .uint n => n == 0
  | .bool b => !b
  | .string s => s == []
  | .slice l => l.isEmpty
  | _ => false

/-- The name under which a value is sent in a field (`structFieldEncoder`, `structEncoder.Encode`). -/
def sentAs (fd : Field) (v : Val) : Option Str := if omitsEmpty fd && emptyVal v then none else jsonKey fd

mutual
/-- A Go value of a type as the encoder sees it (content.go:271): pointers are followed, nil is null. -/
def toG (E : TyEnv) : Ty → Val → GVal
  | .struct n, .struct vs => .fields (fieldsG E (E n) vs)
  | .slice t, .slice vs => .list (elemsG E t vs)
  | .ptr t, .ptr v => toG E t v
  | _, .int i => .int i
  | _, .uint n => .int n
  | _, .bool b => .bool b
  | _, .string s => .string s
  | _, _ => .nil

/-- The elements of a slice. -/
def elemsG (E : TyEnv) (t : Ty) : List Val → List GVal
  | [] => []
  | v :: vs => toG E t v :: elemsG E t vs

/-- The fields of a struct. -/
def fieldsG (E : TyEnv) : List Field → List Val → List (Str × GVal)
  | fd :: fds, v :: vs =>
    match sentAs fd v with
    | none => fieldsG E fds vs
    | some k => (k, toG E fd.ty v) :: fieldsG E fds vs
  | _, _ => []
end

/-- The value of a new variable. A struct of zero values is `zero`. -/
def blank : Ty → Val
  | .int _ => .int 0
  | .uint _ => .uint 0
  | .bool => .bool false
  | .string => .string []
  | _ => .zero

/-- What a pointer points to, or a new variable (`OptionalDecoder.Decode`). -/
def behindPtr (t : Ty) : Val → Val
  | .ptr v => v
  | _ => blank t

/-- The elements that a slice has. -/
def oldElems : Val → List Val
  | .slice l => l
  | _ => []

/-- The fields of a struct. -/
def oldFields (fds : List Field) : Val → List Val
  | .struct l => l
  | _ => fds.map (fun fd => blank fd.ty)

/-- The field for a name (`generalStructDecoder.decodeOneField`, `decoderOfStruct`): the one with just this name in JSON, or else the first with
the same name but for case. -/
def fieldFor (fds : List Field) (k : Str) : Option Nat :=
  match fds.findIdx? (fun fd => jsonKey fd == some k) with
  | some i => some i
  | none => fds.findIdx? (fun fd => (jsonKey fd).map toLower == some (toLower k))

/-- What null does: a pointer or a slice becomes nil, a string empty (`Iterator.ReadString`); anything else stays as it is. -/
def readNull (cur : Val) : Ty → Val
  | .ptr _ => .zero
  | .slice _ => .zero
  | .string => .string []
  | _ => cur

/-- Reading something that is not null into a value behind any number of pointers; pointers that are nil get a new variable
(`OptionalDecoder.Decode`). -/
def readThrough (f : Ty → Val → Option Val) : Ty → Val → Option Val
  | .ptr t, cur => (readThrough f t (behindPtr t cur)).map .ptr
  | t, cur => f t cur

/-- What a number does (`int8Codec` .. `uint64Codec`). -/
def readNum (text : Str) : Ty → Val → Option Val
  | .int bits, _ => match parseInt bits text with | (i, none) => some (.int i) | _ => none
  | .uint bits, _ => match parseUint bits text with | (n, none) => some (.uint n) | _ => none
  | _, _ => none

mutual
/-- What `Decode` (binding/json.go:27) leaves in a variable that holds `cur`, if the text says the tree; `none`: there is an error. -/
def readJson (E : TyEnv) : Ty → JTree → Val → Option Val
  | t, .null, cur => some (readNull cur t)
  | t, .bool b, cur => readThrough (fun t _ => match t with | .bool => some (.bool b) | _ => none) t cur
  | t, .num text, cur => readThrough (readNum text) t cur
  | t, .str s, cur => readThrough (fun t _ => match t with | .string => some (.string s) | _ => none) t cur
  | t, .arr l, cur => readThrough (fun t cur => match t with | .slice t => (readElems E t l (oldElems cur)).map .slice | _ => none) t cur
  | t, .obj l, cur => readThrough (fun t cur => match t with | .struct n => (readMembers E (E n) l (oldFields (E n) cur)).map .struct | _ => none) t cur

/-- The elements of an array, into those that the slice has and then into new ones (`sliceDecoder.doDecode`). What a slice holds between its
length and its capacity is not modelled. -/
def readElems (E : TyEnv) (t : Ty) : List JTree → List Val → Option (List Val)
  | [], _ => some []
  | j :: l, old =>
    match readJson E t j (old.headD (blank t)) with
    | none => none
    | some v => (readElems E t l old.tail).map (v :: ·)

/-- The members of an object, one after the other; those for which there is no field are skipped. -/
def readMembers (E : TyEnv) (fds : List Field) : List (Str × JTree) → List Val → Option (List Val)
  | [], cur => some cur
  | (k, j) :: l, cur =>
    match fieldFor fds k with
    | none => readMembers E fds l cur
    | some i =>
      match fds[i]?, cur[i]? with
      | some fd, some w =>
        match readJson E fd.ty j w with
        | none => none
        | some v => readMembers E fds l (cur.set i v)
      | _, _ => none
end

end Water
