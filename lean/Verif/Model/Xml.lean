import Verif.Model.JsonBind
/- What `xml.NewEncoder(w).Encode(v)` writes (content.go:281), and what `xml.NewDecoder(r).Decode(obj)` (binding/xml.go:22) does to a target
when the text says a given tree; both by encoding/xml of go 1.15, for structs of integers, booleans, strings, pointers, slices and structs.
Not modelled: how the decoder reads text, embedded fields, `XMLName`, `[]byte`, floating-point numbers, times, maps (which are an
error), and tags with other options than `omitempty`, with paths (`a>b`) or name spaces. -/
namespace Water

/-- The field as far as XML is concerned: the tag `xml` takes the place of the tag `json`. The rules for its name are the same. -/
def retag (fd : Field) : Field := { fd with tag := fun _ => fd.tag b!"xml" }

/-- `isInCharacterRange` -/
def xmlRange (r : Nat) : Bool :=
  r == 9 || r == 10 || r == 13 || (0x20 ≤ r && r ≤ 0xD7FF) || (0xE000 ≤ r && r ≤ 0xFFFD) || (0x10000 ≤ r && r ≤ 0x10FFFF)

/-- The text for a character (`EscapeText`, `printer.EscapeString`); `none`: as it is. -/
def xmlEsc (r : Nat) : Option Str :=
  if r = 34 then some b!"&#34;"
  else if r = 39 then some b!"&#39;"
  else if r = 38 then some b!"&amp;"
  else if r = 60 then some b!"&lt;"
  else if r = 62 then some b!"&gt;"
  else if r = 9 then some b!"&#x9;"
  else if r = 10 then some b!"&#xA;"
  else if r = 13 then some b!"&#xD;"
  else if !xmlRange r then some [0xEF, 0xBF, 0xBD]
  else none

/-- The loop of `printer.EscapeString`. `fuel` bounds the number of runes. -/
def xmlTextF : Nat → Str → Str
  | 0, _ => []
  | _ + 1, [] => []
  | f + 1, c :: rest =>
    let (r, k) := decodeRune (c :: rest)
    (match xmlEsc r with
      | some e => e
      | none => if r = 0xFFFD ∧ k = 1 then [0xEF, 0xBF, 0xBD] else (c :: rest).take k) ++ xmlTextF f ((c :: rest).drop k)

/-- The text for a string. -/
def xmlText (s : Str) : Str := xmlTextF s.length s

/-- `marshalSimple`, and what is written for it. -/
def xmlLeaf : Val → Str
  | .int i => itoa i
  | .uint n => itoaNat n
  | .bool b => if b then b!"true" else b!"false"
  | .string s => xmlText s
  | _ => []

/-- `writeStart` and `writeEnd` around a text. -/
def xmlElem (k t : Str) : Str := 60 :: k ++ 62 :: t ++ 60 :: 47 :: k ++ [62]

mutual
/-- `marshalValue` after its test for `omitempty`: pointers are followed, nil is nothing, every element of a slice is an element of its own. -/
def xmlValue (E : TyEnv) (k : Str) (opt : Bool) : Ty → Val → Str
  | .ptr t, .ptr v => xmlValue E k opt t v
  | .ptr _, _ => []
  | .slice t, .slice vs => xmlElems E k opt t vs
  | .slice _, _ => []
  | .struct n, .struct vs => xmlElem k (xmlFields E ((E n).map retag) vs)
  | _, v => xmlElem k (xmlLeaf v)

/-- The loop over the elements of a slice: each of them is tested for `omitempty` again. -/
def xmlElems (E : TyEnv) (k : Str) (opt : Bool) (t : Ty) : List Val → Str
  | [] => []
  | v :: vs => (if opt && emptyVal v then [] else xmlValue E k opt t v) ++ xmlElems E k opt t vs

/-- `marshalStruct` -/
def xmlFields (E : TyEnv) : List Field → List Val → Str
  | fd :: fds, v :: vs =>
    (match sentAs fd v with
      | none => []
      | some k => xmlValue E k (omitsEmpty fd) fd.ty v) ++ xmlFields E fds vs
  | _, _ => []
end

/-- `Encoder.Encode` of a struct (content.go:281): the element has the name of the type. -/
def encodeXml (E : TyEnv) (root : Str) (n : Nat) (v : Val) : Str := xmlValue E root false (.struct n) v

/-- The content of an element: characters and elements. -/
inductive XItem where
  | chr (n : Nat)
  | elem (k : Str) (kids : List XItem)

/-- `copyValue` (encoding/xml): white space around numbers and booleans does not matter, and no text is the zero value. -/
def readLeaf (data : Str) : Ty → Option Val
  | .int bits => if data = [] then some (.int 0) else match parseInt bits (trimSpace data) with | (i, none) => some (.int i) | _ => none
  | .uint bits => if data = [] then some (.uint 0) else match parseUint bits (trimSpace data) with | (n, none) => some (.uint n) | _ => none
  | .bool => if data = [] then some (.bool false) else match parseBool (trimSpace data) with | (b, none) => some (.bool b) | _ => none
  | .string => some (.string data)
  | _ => none

/-- `Decoder.unmarshal` up to the value itself: one pointer is followed, or made; a slice gets one element more. -/
def xmlThrough (f : Ty → Val → Option Val) : Ty → Val → Option Val
  | .ptr (.ptr _), _ => none
  | .ptr t, cur => (xmlThrough f t (behindPtr t cur)).map .ptr
  | .slice t, cur => (xmlThrough f t (blank t)).map (fun v => .slice (oldElems cur ++ [v]))
  | t, cur => f t cur

/-- The characters that stand directly in an element. -/
def dataOf (chars : Nat → Str) : List XItem → Str
  | [] => []
  | .chr n :: l => chars n ++ dataOf chars l
  | .elem _ _ :: l => dataOf chars l

/-- The name of an element. -/
def XItem.name : XItem → Option Str
  | .chr _ => none
  | .elem k _ => some k

/-- UTF-8 (`utf8.EncodeRune`) -/
def utf8Bytes (n : Nat) : Str := Spec.charBytes n

mutual
/-- What an element does to a variable (`Decoder.unmarshal`); `none`: there is an error. -/
def readXItem (E : TyEnv) : XItem → Ty → Val → Option Val
  | .chr _, _, _ => none
  | .elem _ kids, t, cur =>
    match t with
    | .struct n => (readXItems E ((E n).map retag) kids (oldFields (E n) cur)).map .struct
    | t => readLeaf (dataOf utf8Bytes kids) t

/-- The loop of `Decoder.unmarshal` over what is in an element, for a struct (`unmarshalPath`): elements for which there is no field are
skipped. -/
def readXItems (E : TyEnv) (fds : List Field) : List XItem → List Val → Option (List Val)
  | [], cur => some cur
  | x :: l, cur =>
    match x.name with
    | none => readXItems E fds l cur
    | some k =>
      match fds.findIdx? (fun fd => jsonKey fd == some k) with
      | none => readXItems E fds l cur
      | some i =>
        match fds[i]?, cur[i]? with
        | some fd, some w =>
          match xmlThrough (readXItem E x) fd.ty w with
          | none => none
          | some v => readXItems E fds l (cur.set i v)
        | _, _ => none
end

/-- `Decoder.Decode` into a pointer to a struct: the name of the first element does not matter. -/
def readXml (E : TyEnv) (n : Nat) (x : XItem) (cur : Val) : Option Val := readXItem E x (.struct n) cur

end Water
