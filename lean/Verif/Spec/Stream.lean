import Verif.Model.Stream
/- What a reader gives, told without a loop. -/
namespace Water.Spec
open Water

/-- turns without errors -/
def Flawless (ts : List CopyTurn) : Prop := ∀ t ∈ ts, t.readErr = none ∧ (t.data = [] ∨ t.writeErr = none)

/-- the bytes of some turns -/
def bytesOf (ts : List CopyTurn) : Str := ts.flatMap (·.data)

/-- The reader gives `text` and is at its end, and everything could be written. -/
def GivesAll (ts : List CopyTurn) (text : Str) : Prop :=
  (Flawless ts ∧ text = bytesOf ts) ∨
  ∃ before last after, ts = before ++ last :: after ∧ Flawless before ∧ (last.data = [] ∨ last.writeErr = none) ∧
    last.readErr = some .eof ∧ text = bytesOf before ++ last.data

/-- The reader fails behind `text`, or the connection does. -/
def BreaksAfter (ts : List CopyTurn) (text : Str) (e : RdErr) : Prop :=
  ∃ before last after, ts = before ++ last :: after ∧ Flawless before ∧
    (((last.data = [] ∨ last.writeErr = none) ∧ last.readErr = some e ∧ e ≠ .eof ∧ text = bytesOf before ++ last.data) ∨
      ∃ n m, last.data ≠ [] ∧ last.writeErr = some (n, m) ∧ e = .failed m ∧ text = bytesOf before ++ last.data.take n)

end Water.Spec
