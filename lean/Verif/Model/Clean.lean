import Verif.Model.Files
/-
`path.Clean` of the standard library (Go 1.15 path/path.go), called at util.go:31 and m_static.go:76, as it is written: one
pass over the bytes with an output buffer. `Lemmas/Clean` shows that it is `pathClean`.
-/
namespace Water

/-- `.` -/
def dotB : UInt8 := 46

/-- The inner loop that removes the last element (`for out.w > dotdot && out.index(out.w) != '/' { out.w-- }`); the number is
`out.w`. -/
def cutBack (out : Str) (dotdot : Nat) : Nat → Nat
  | 0 => 0
  | w + 1 => if w + 1 > dotdot ∧ out[w + 1]? ≠ some slash then cutBack out dotdot w else w + 1

/-- The main loop: what is left to read, the output, and where `..` must stop. Every turn reads at least one byte, so the length
of what is left is enough `fuel`. -/
def cleanLoop (rooted : Bool) : Nat → Str → Str → Nat → Str
  | 0, _, out, _ => out
  | _ + 1, [], out, _ => out
  | fuel + 1, c :: r, out, dotdot =>
    if c = slash then cleanLoop rooted fuel r out dotdot
    else if c = dotB ∧ (r = [] ∨ r.head? = some slash) then cleanLoop rooted fuel r out dotdot
    else if c = dotB ∧ r.head? = some dotB ∧ (r.tail = [] ∨ r.tail.head? = some slash) then
      if out.length > dotdot then
        cleanLoop rooted fuel r.tail (out.take (cutBack out dotdot (out.length - 1))) dotdot
      else if !rooted then
        let out' := (if out.length > 0 then out ++ [slash] else out) ++ [dotB, dotB]
        cleanLoop rooted fuel r.tail out' out'.length
      else cleanLoop rooted fuel r.tail out dotdot
    else
      let out' := if (rooted = true ∧ out.length ≠ 1) ∨ (rooted = false ∧ out.length ≠ 0) then out ++ [slash] else out
      cleanLoop rooted fuel (r.dropWhile (· != slash)) (out' ++ c :: r.takeWhile (· != slash)) dotdot

/-- `path.Clean`. -/
def goClean (p : Str) : Str :=
  if p = [] then b!"."
  else
    let out := if p.head? = some slash then cleanLoop true p.length p.tail [slash] 1 else cleanLoop false p.length p [] 0
    if out = [] then b!"." else out

end Water
