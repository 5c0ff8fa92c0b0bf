import Verif.Model.Engine
/-
The search of tree.go:212-330 with a record of the work it does: one entry for every node that is examined (every turn of
the loops at tree.go:235-268 and 274-313, and the test of the last end node at tree.go:315-317), with the text it is
compared with (none for the last of these). `Lemmas/Cost` shows that leaving out the record gives the search of `Tree`.
-/
namespace Water
variable {α : Type}

/-- What a search examines. -/
abbrev Tests := List (Seg × Str)

/-- `matchEnds` (tree.go:234-271) with the record. -/
def matchEndsT (rx : Regex) (g : Nat) (uri : Str) : List (EndNode α) → Params → Tests × Params × Option (EndNode α)
  | [], ps => ([], ps, none)
  | e :: es, ps =>
    let go : Tests × Params × Option (EndNode α) :=
      let (t, r) := matchEndsT rx g uri es ps
      ((e.seg, uri) :: t, r)
    match e.seg.typ with
    | .static => if e.seg.pattern = uri then ([(e.seg, uri)], ps, some e) else go
    | .regexp =>
      let results := rx.find e.seg.reg uri
      if (results.length : Int) - 1 ≠ e.seg.wildcards.length then go
      else ([(e.seg, uri)], setAll ps e.seg.wildcards (results.drop 1), some e)
    | .holder => ([(e.seg, uri)], if e.seg.parsed ≠ [95] then ps.set e.seg.parsed uri else ps, some e)
    | .matchAll => ([(e.seg, uri)], setGlob e.seg g uri ps, some e)

/-- `matchFallback` (tree.go:315-329) with the record. -/
def matchFallbackT (g : Nat) (rest : Str) (ends : List (EndNode α)) (ps : Params) : Tests × Params × Option (EndNode α) :=
  match ends.getLast? with
  | some e => ([(e.seg, [])], if e.seg.typ = .matchAll then (setGlob e.seg g rest ps, some e) else (ps, none))
  | none => ([], ps, none)

mutual
/-- `matchNext` (tree.go:226-232) with the record. -/
def matchNextT (rx : Regex) : Node α → Nat → Str → Params → Tests × Params × Option (EndNode α)
  | .mk _ subs ends, g, uri, ps =>
    match indexByte uri slash with
    | none => matchEndsT rx g uri ends ps
    | some i => matchSubsT rx subs ends g (uri.take i) (uri.drop (i + 1)) ps

/-- `matchSubs` (tree.go:273-330) with the record. -/
def matchSubsT (rx : Regex) : List (Node α) → List (EndNode α) → Nat → Str → Str → Params →
    Tests × Params × Option (EndNode α)
  | [], ends, g, segment, uri, ps => matchFallbackT g (segment ++ [slash] ++ uri) ends ps
  | n :: ns, ends, g, segment, uri, ps =>
    match n.seg.typ with
    | .static =>
      if n.seg.pattern = segment then
        match matchNextT rx n g uri ps with
        | (t, ps', some e) => ((n.seg, segment) :: t, ps', some e)
        | (t, ps', none) =>
          let (t', r) := matchSubsT rx ns ends g segment uri ps'
          ((n.seg, segment) :: t ++ t', r)
      else
        let (t', r) := matchSubsT rx ns ends g segment uri ps
        ((n.seg, segment) :: t', r)
    | .regexp =>
      let results := rx.find n.seg.reg segment
      if (results.length : Int) - 1 ≠ n.seg.wildcards.length then
        let (t', r) := matchSubsT rx ns ends g segment uri ps
        ((n.seg, segment) :: t', r)
      else
        match matchNextT rx n g uri (setAll ps n.seg.wildcards (results.drop 1)) with
        | (t, ps', some e) => ((n.seg, segment) :: t, ps', some e)
        | (t, ps', none) =>
          let (t', r) := matchSubsT rx ns ends g segment uri ps'
          ((n.seg, segment) :: t ++ t', r)
    | .holder =>
      match matchNextT rx n g uri ps with
      | (t, ps', some e) =>
        ((n.seg, segment) :: t, if n.seg.parsed ≠ [95] then ps'.set n.seg.parsed segment else ps', some e)
      | (t, ps', none) =>
        let (t', r) := matchSubsT rx ns ends g segment uri ps'
        ((n.seg, segment) :: t ++ t', r)
    | .matchAll =>
      match matchNextT rx n (g + 1) uri ps with
      | (t, ps', some e) =>
        ((n.seg, segment) :: t,
          if n.seg.parsed ≠ [] then
            (if n.seg.parsed ≠ [95] then ps'.set n.seg.parsed (segment ++ [slash] ++ uri) else ps')
          else ps'.set (globKey g) segment, some e)
      | (t, ps', none) =>
        let (t', r) := matchSubsT rx ns ends g segment uri ps'
        ((n.seg, segment) :: t ++ t', r)
end

/-- `lookup` (engine.go:102-110) with the record; the static map is not a search. -/
def lookupT (rx : Regex) (e : Engine α) (i : Nat) (path : Str) : Tests × Option (EndNode α) × Option (Option Params) :=
  let static : Option (EndNode α) :=
    if e.enableStatic then
      match e.statics i path, e.trees i with
      | some segs, some t => endAt segs t
      | _, _ => none
    else none
  match static with
  | some n => ([], some n, none)
  | none =>
    match e.trees i with
    | none => ([], none, some none)
    | some t =>
      let (ts, ps, n) := matchNextT rx t 0 (trimSuffix (trimPrefix path [slash]) [slash]) Map.empty
      (ts, n, some (some ps))

end Water
