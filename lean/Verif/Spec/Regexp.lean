import Verif.Model.Regexp
import Verif.Spec.Link
/-
What a regular expression describes, said without an order of search: in the text `t`, the expression may stand for what is between the
positions `i` and `j`.
-/
namespace Water.Spec

variable (t : List (Nat × Str))

/-- `Mat t r k i j c`: the expression `r`, whose first group has number `k`, can be read as the part of `t` from `i` to `j`, its groups being
read as `c` says. -/
inductive Mat : Re → Nat → Nat → Nat → Caps → Prop where
  | eps {k i} : Mat .eps k i i []
  | one {c k i x} : t[i]? = some x → c.has x.1 = true → Mat (.one c) k i (i + 1) []
  | group {a k i j c} : Mat a (k + 1) i j c → Mat (.group a) k i j (c ++ [(k, i, j)])
  | nc {a k i j c} : Mat a k i j c → Mat (.nc a) k i j c
  | none {op l a k i} : op ≠ RepOp.plus → Mat (.rep op l a) k i i []
  | once {op l a k i j c} : Mat a k i j c → Mat (.rep op l a) k i j c
  | more {op l a k i j m c d} : op ≠ RepOp.quest → Mat a k i m c → Mat (.rep op l a) k m j d → Mat (.rep op l a) k i j (c ++ d)
  | bot {k} : Mat .bot k 0 0 []
  | eot {k} : Mat .eot k t.length t.length []
  | cat {a b k i j m c d} : Mat a k i m c → Mat b (k + a.groups) m j d → Mat (.cat a b) k i j (c ++ d)
  | left {a b k i j c} : Mat a k i j c → Mat (.alt a b) k i j c
  | right {a b k i j c} : Mat b (k + a.groups) i j c → Mat (.alt a b) k i j c

/-- The expression describes the text: the whole of it. -/
def Describes (r : Re) (s : Str) : Prop := ∃ c, Mat (runesOf s) r 1 0 (runesOf s).length c

/-- The expression describes some part of the text. -/
def DescribesPart (r : Re) (s : Str) : Prop := ∃ i j c, i ≤ (runesOf s).length ∧ Mat (runesOf s) r 1 i j c

/-- `rx` treats the expression as Go's package does. -/
structure Does (rx : Regex) (r : Re) : Prop where
  ok : r.ok = true
  compiles : rx.compiles r.text = true
  find : ∀ s, rx.find r.text s = r.find s

/-- How often the byte stands in the expression without marking a group: in `(?:`, or for itself. -/
def falseParens (b : UInt8) : Re → Nat
  | .one (.char c) => if c = b then 1 else 0
  | .one (.set _ rs) => (rs.map (fun r => (if r.1 = b then 1 else 0) + (if r.1 ≠ r.2 ∧ r.2 = b then 1 else 0))).sum
  | .group a | .rep _ _ a => falseParens b a
  | .nc a => falseParens b a + 1
  | .cat a b' | .alt a b' => falseParens b a + falseParens b b'
  | _ => 0

/-- A segment with an expression, as its author writes it: `<n1,n2 ~ re>`. -/
def reSeg (names : List Str) (r : Re) : Str := [60] ++ join [44] names ++ b!" ~ " ++ r.text ++ [62]

/-- Names of parameters, all different, and an expression that can stand in a segment: without `>` and `/`, without `:`, and without a blank in
front or behind. -/
structure ReSegment (names : List Str) (r : Re) : Prop where
  some_name : names ≠ []
  name : ∀ x ∈ names, LinkName x
  distinct : names.Nodup
  text : ∀ c ∈ r.text, c ≠ 62 ∧ c ≠ 47 ∧ c ≠ 58
  front : r.text.head? ≠ some 32
  back : r.text.getLast? ≠ some 32

/-- The route `/a/b/<n1,n2 ~ re>`: segments that stand for themselves, and then the one with the expression. -/
def reRoute (lits : List Str) (names : List Str) (r : Re) : Str := [47] ++ join [47] (lits ++ [reSeg names r])

/-- `^(re)$`, the whole as one group -/
def anchored (a : Re) : Re := .cat .bot (.cat (.group a) .eot)

/-- The text of group `k`, in a match that says `c` of the groups: that of the last entry for `k`, the empty text without one. -/
inductive GroupIs (t : List (Nat × Str)) (c : Caps) (k : Nat) : Str → Prop where
  | last {a b : Caps} {i j : Nat} : c = a ++ (k, i, j) :: b → (∀ e ∈ b, e.1 ≠ k) → GroupIs t c k (((t.drop i).take (j - i)).flatMap Prod.snd)
  | never : (∀ e ∈ c, e.1 ≠ k) → GroupIs t c k []

end Water.Spec
