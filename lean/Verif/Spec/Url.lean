import Verif.Spec.Util
import Verif.Spec.Values
/- What a query string means: which texts and which lists of pairs it stands for. -/
namespace Water.Spec
open Water

/-- `s` is an encoding of the text `t`: a space may be written as a plus sign, any byte as a percent sign with two
hexadecimal digits of either case, and any byte but these two signs as itself. -/
inductive Encodes : Str → Str → Prop where
  | nil : Encodes [] []
  | plain {c : UInt8} {t s : Str} : c ≠ 37 → c ≠ 43 → Encodes t s → Encodes (c :: t) (c :: s)
  | plus {t s : Str} : Encodes t s → Encodes (32 :: t) (43 :: s)
  | hex {a b : UInt8} {x y : Nat} {t s : Str} : hexOf a = some x → hexOf b = some y → Encodes t s →
      Encodes (UInt8.ofNat (16 * x + y) :: t) (37 :: a :: b :: s)

/-- no separator in the text -/
def NoSep (s : Str) : Prop := 38 ∉ s ∧ 59 ∉ s

/-- What may stand between two separators, with the pairs it stands for: nothing, a name, or a name and a value. -/
inductive Piece : Str → List (Str × Str) → Prop where
  | empty : Piece [] []
  | name {k s : Str} : Encodes k s → NoSep s → 61 ∉ s → s ≠ [] → Piece s [(k, [])]
  | pair {k v s t : Str} : Encodes k s → Encodes v t → NoSep s → NoSep t → 61 ∉ s → Piece (s ++ 61 :: t) [(k, v)]

/-- The query string stands for the list of pairs. -/
inductive Query : Str → List (Str × Str) → Prop where
  | one {s : Str} {ps : List (Str × Str)} : Piece s ps → Query s ps
  | more {s q : Str} {c : UInt8} {ps qs : List (Str × Str)} : Piece s ps → c = 38 ∨ c = 59 → Query q qs →
      Query (s ++ c :: q) (ps ++ qs)

/-- Any string: what stands for nothing is passed over. -/
inductive Lenient : Str → List (Str × Str) → Prop where
  | one {s : Str} {ps : List (Str × Str)} : Piece s ps ∨ (NoSep s ∧ ps = [] ∧ ∀ qs, ¬ Piece s qs) → Lenient s ps
  | more {s q : Str} {c : UInt8} {ps qs : List (Str × Str)} : Piece s ps ∨ (NoSep s ∧ ps = [] ∧ ∀ qs, ¬ Piece s qs) →
      c = 38 ∨ c = 59 → Lenient q qs → Lenient (s ++ c :: q) (ps ++ qs)

/-- the values of a name in a list of pairs, in order -/
def valuesIn {α : Type} (ps : List (Str × α)) (k : Str) : List α := (ps.filter (fun p => p.1 == k)).map Prod.snd

/-- the methods whose requests have a form in the body -/
def FormMethod (req : Req) : Prop := req.method ∈ [b!"POST", b!"PUT", b!"PATCH"]

/-- the unreserved characters of RFC 3986 -/
def unreserved : Str := b!"ABCDEFGHIJKLMNOPQRSTUVWXYZabcdefghijklmnopqrstuvwxyz0123456789-._~"

/-- The one encoding of a text that Go clients send: unreserved characters as themselves, a space as a plus sign, every other byte as a
percent sign with two capital hexadecimal digits. -/
inductive Sends : Str → Str → Prop where
  | nil : Sends [] []
  | keep {c : UInt8} {t s : Str} : c ∈ unreserved → Sends t s → Sends (c :: t) (c :: s)
  | plus {t s : Str} : Sends t s → Sends (32 :: t) (43 :: s)
  | hex {c a b : UInt8} {t s : Str} : c ∉ unreserved → c ≠ 32 → b!"0123456789ABCDEF"[c.toNat / 16]? = some a →
      b!"0123456789ABCDEF"[c.toNat % 16]? = some b → Sends t s → Sends (c :: t) (37 :: a :: b :: s)

end Water.Spec
