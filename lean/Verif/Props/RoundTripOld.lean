import Verif.Lemmas.RoundTripOld
import Verif.Props.RoundTrip
import Verif.Props.Mapping
/-
C98: a struct that a client writes as a form, a query string or a header is bound to the same struct by `Bind2`, and `Bind` and `Bind2`
agree on it.
-/
namespace Water
open Spec

/-- **C98.** Whatever struct is sent as the pairs `sendOld`, a source with these values (in any order of the names, with any other
names) is bound to the same struct: pointers that were nil are nil, the others point to the same values. `src.header` tells
whether it is a header. -/
theorem C98_source (o : BOracle) (E : TyEnv) (tag : Str) {src : Source} (hfi : src.files = []) {f g n : Nat} (hg : f ≤ g) {v : Val}
    (hs : SendableOld E src.header tag f (.struct n) emptyField v) (hnd : (namesOld E src.header tag f (.struct n) emptyField).Nodup)
    (hF : (src.form.map Prod.fst).Nodup) (hfill : ∀ e ∈ src.form, e.2 ≠ [])
    (hv : ∀ k ∈ namesOld E src.header tag f (.struct n) emptyField,
      values src.form k = valuesIn (sendOld E src.header tag f (.struct n) emptyField v) k)
    (check : Val → Option Nat) (hc : ∀ v, check v = none) :
    ∃ w, bind2 o E (g + 1) check src tag n .zero = (.ok, w) ∧ SameVal E (.struct n) v w := by
  obtain ⟨b, w, hw, hsame, _⟩ := old_back (o := o) (E := E) (src := src) (tag := tag) hfi f g hg (.struct n) emptyField v hs hnd
    (fun k hk => at_orNone hF hfill (hv k hk))
  refine ⟨w, ?_, hsame⟩
  unfold bind2
  rw [mapping_ptr (show emptyField.tag tag ≠ b!"-" by simp [emptyField])]
  simp only [mapPointer, hw, pointee, hc]

/-- **C98 (query string).** The struct is sent in the query string: `queryBinding.Bind2` gives it back. -/
theorem C98_query (o : BOracle) (E : TyEnv) {q : Str} {f g n : Nat} (hg : f ≤ g) {v : Val}
    (hs : SendableOld E false b!"form" f (.struct n) emptyField v) (hnd : (namesOld E false b!"form" f (.struct n) emptyField).Nodup)
    (hq : q = encodeForm (sendOld E false b!"form" f (.struct n) emptyField v)) (check : Val → Option Nat) (hc : ∀ v, check v = none) :
    ∃ w, bind2 o E (g + 1) check ⟨(parseQuery q).1, [], false⟩ b!"form" n .zero = (.ok, w) ∧ SameVal E (.struct n) v w := by
  have hQ : Query q (sendOld E false b!"form" f (.struct n) emptyField v) := by rw [hq]; exact C79_encode _
  exact C98_source o E b!"form" (src := ⟨(parseQuery q).1, [], false⟩) rfl hg hs hnd (parseQuery_nodup _) (parseQuery_filled _)
    (fun k _ => by rw [parseQuery_values (query_lenient hQ)]) check hc

/-- **C98 (agreement).** A form that holds a struct for both mappers is bound by both to the same struct. -/
theorem C98_agree (o : BOracle) (E : TyEnv) (tag : Str) {F : Form} {f g n : Nat} (hg : f ≤ g) {v : Val}
    (hs : Sendable E tag f n v) (hnd : (namesOf E tag f n).Nodup)
    (hs' : SendableOld E false tag f (.struct n) emptyField v) (hnd' : (namesOld E false tag f (.struct n) emptyField).Nodup)
    (hF : (F.map Prod.fst).Nodup) (hfill : ∀ e ∈ F, e.2 ≠ [])
    (hv : ∀ k ∈ namesOf E tag f n, values F k = valuesIn (send E tag f n v) k)
    (hv' : ∀ k ∈ namesOld E false tag f (.struct n) emptyField, values F k = valuesIn (sendOld E false tag f (.struct n) emptyField v) k) :
    ∃ w w', bindForm o E g (fun _ => none) (.struct n .zero) F [] tag = (.ok, .struct n w) ∧
      bind2 o E (g + 1) (fun _ => none) ⟨F, [], false⟩ tag n .zero = (.ok, w') ∧ SameVal E (.struct n) v w ∧ SameVal E (.struct n) v w' := by
  obtain ⟨w, h1, h2⟩ := C90_form o E tag hg hs hnd hF hfill hv (fun _ => none) (fun _ => rfl)
  obtain ⟨w', h3, h4⟩ := C98_source o E tag (src := ⟨F, [], false⟩) rfl hg hs' hnd' hF hfill hv' (fun _ => none) (fun _ => rfl)
  exact ⟨w, w', h1, h3, h2, h4⟩

namespace Demo

/-- `type T struct { ID int8; On bool; Tags []string; N **uint16; In U; Sub, Nil *V; low int; Pair [2]int16 }`, with
`type U struct { A string }` and `type V struct { B int }`; the second pointer has other names behind it. -/
def oldTripEnv : TyEnv := fun n =>
  if n = 0 then
    [fld b!"ID" b!"x-id" (.int 8), fld b!"On" b!"on,default=1" .bool, fld b!"Tags" [] (.slice .string), fld b!"N" b!"n" (.ptr (.ptr (.uint 16))),
     fld b!"In" [] (.struct 1), fld b!"Sub" [] (.ptr (.struct 2)), fld b!"Nil" [] (.ptr (.struct 3)),
     { fld b!"low" b!"low" (.int 64) with exported := false }, fld b!"Pair" b!"pair" (.array 2 (.int 16)), fld b!"Skip" b!"-" .string]
  else if n = 1 then [fld b!"A" b!"a" .string] else if n = 2 then [fld b!"B" b!"b" (.int 64)] else [fld b!"C" b!"c" (.int 64)]

/-- a value with odd texts, a negative number, a boolean against its default, a pointer to a pointer and a nil pointer -/
def oldTripVal : Val :=
  .struct [.int (-128), .bool false, .slice [.string b!"x&y=", .string []], .ptr (.ptr (.uint 65535)), .struct [.string b!"1 + 1"],
    .ptr (.struct [.int 7]), .zero, .zero, .slice [.int 1, .int (-2)], .zero]

/-- what is sent in a form, and the names in a header -/
example : sendOld oldTripEnv false b!"form" 4 (.struct 0) emptyField oldTripVal =
      [(b!"x-id", b!"-128"), (b!"on", b!"false"), (b!"Tags", b!"x&y="), (b!"Tags", []),
       (b!"n", b!"65535"), (b!"a", b!"1 + 1"), (b!"b", b!"7"), (b!"pair", b!"1"), (b!"pair", b!"-2")] ∧
    namesOld oldTripEnv false b!"form" 4 (.struct 0) emptyField =
      [b!"x-id", b!"on", b!"Tags", b!"n", b!"In", b!"a", b!"Sub", b!"b", b!"Nil", b!"c", b!"pair"] ∧
    ((sendOld oldTripEnv true b!"form" 4 (.struct 0) emptyField oldTripVal).map Prod.fst) =
      [b!"X-Id", b!"On", b!"Tags", b!"Tags", b!"N", b!"A", b!"B", b!"Pair", b!"Pair"] := by decide +kernel

/-- the hypotheses of C98 are met, for a form and for a header -/
theorem oldTrip_sendable (header : Bool) : SendableOld oldTripEnv header b!"form" 4 (.struct 0) emptyField oldTripVal ∧
    (namesOld oldTripEnv header b!"form" 4 (.struct 0) emptyField).Nodup := by
  refine ⟨.inr ⟨by decide, .inr (by decide), trivial, rfl, ?_⟩, by cases header <;> decide +kernel⟩
  intro i fd x h1 h2
  have hi : i = 0 ∨ i = 1 ∨ i = 2 ∨ i = 3 ∨ i = 4 ∨ i = 5 ∨ i = 6 ∨ i = 7 ∨ i = 8 ∨ i = 9 := by
    have : i < 10 := (List.getElem?_eq_some_iff.1 h1).1
    omega
  rcases hi with rfl | rfl | rfl | rfl | rfl | rfl | rfl | rfl | rfl | rfl <;> cases h1 <;> cases h2
  · exact .inr ⟨rfl, .inr ⟨by decide, rfl, by decide +kernel, ⟨by decide, by decide⟩, ⟨by decide, by decide⟩, trivial, ⟨by decide, by decide⟩⟩⟩
  · exact .inr ⟨rfl, .inr ⟨by decide, rfl, by decide +kernel, trivial, trivial, trivial, trivial⟩⟩
  · refine .inr ⟨rfl, .inr ⟨by decide, rfl, by decide +kernel, by decide +kernel, trivial, trivial, ?_⟩⟩
    intro a ha
    simp only [elemsIn, List.mem_cons, List.not_mem_nil, or_false] at ha
    rcases ha with rfl | rfl <;> exact ⟨trivial, trivial, trivial⟩
  · refine .inr ⟨rfl, .inr ⟨by decide, .inr ⟨rfl, _, rfl, .inr ⟨by decide, .inr ⟨rfl, _, rfl, ?_, ?_⟩⟩, ?_⟩⟩⟩
    · exact .inr ⟨by decide, rfl, by decide +kernel, (by show 16 ≤ 64; decide), (by show 16 ≤ 64; decide), trivial,
        (by show 65535 < 2 ^ 16; decide)⟩
    · cases header <;> decide +kernel
    · cases header <;> decide +kernel
  · refine .inr ⟨rfl, .inr ⟨by decide, .inr (by decide +kernel), trivial, rfl, ?_⟩⟩
    intro i fd x h1 h2
    have hi : i = 0 := by
      have : i < 1 := (List.getElem?_eq_some_iff.1 h1).1
      omega
    subst hi
    cases h1
    cases h2
    exact .inr ⟨rfl, .inr ⟨by decide, rfl, by decide +kernel, trivial, trivial, trivial, trivial⟩⟩
  · refine .inr ⟨rfl, .inr ⟨by decide, .inr ⟨rfl, _, rfl, .inr ⟨by decide, .inr (by decide +kernel), trivial, rfl, ?_⟩, ?_⟩⟩⟩
    · intro i fd x h1 h2
      have hi : i = 0 := by
        have : i < 1 := (List.getElem?_eq_some_iff.1 h1).1
        omega
      subst hi
      cases h1
      cases h2
      exact .inr ⟨rfl, .inr ⟨by decide, rfl, by decide +kernel, ⟨by decide, by decide⟩, ⟨by decide, by decide⟩, trivial, ⟨by decide, by decide⟩⟩⟩
    · cases header <;> decide +kernel
  · refine .inr ⟨rfl, .inr ⟨by decide, .inl ⟨rfl, .inr ⟨.inr (by decide +kernel), ?_⟩⟩⟩⟩
    intro fd' hm
    have : fd' = fld b!"C" b!"c" (.int 64) := by simpa [oldTripEnv] using hm
    subst this
    exact .inr (.inr (show bindDefault (fld b!"C" b!"c" (.int 64)) b!"form" = none by decide +kernel))
  · exact .inl ⟨rfl, rfl⟩
  · refine .inr ⟨rfl, .inr ⟨by decide, rfl, by decide +kernel, by decide, ⟨by decide, by decide⟩, .inr ⟨_, rfl, rfl⟩, ?_⟩⟩
    intro i hi
    have : i = 0 ∨ i = 1 := by omega
    rcases this with rfl | rfl <;> exact ⟨⟨by decide, by decide⟩, trivial, ⟨by decide, by decide⟩⟩
  · exact .inr ⟨rfl, .inl ⟨by decide, rfl⟩⟩

/-- and the struct comes back, from a form and from a header -/
example :
    same (bind2 bindO oldTripEnv 5 (fun _ => none) ⟨addAll [] (sendOld oldTripEnv false b!"form" 4 (.struct 0) emptyField oldTripVal), [], false⟩
      b!"form" 0 .zero).2 oldTripVal = true ∧
    same (bind2 bindO oldTripEnv 5 (fun _ => none) ⟨addAll [] (sendOld oldTripEnv true b!"form" 4 (.struct 0) emptyField oldTripVal), [], true⟩
      b!"form" 0 .zero).2 oldTripVal = true := by decide +kernel

/-- the whole way through a query string -/
example : ∃ w, bind2 bindO oldTripEnv 5 (fun _ => none)
      ⟨(parseQuery b!"x-id=-128&on=false&Tags=x%26y%3D&Tags=&n=65535&a=1+%2B+1&b=7&pair=1&pair=-2").1, [], false⟩ b!"form" 0 .zero = (.ok, w) ∧
    SameVal oldTripEnv (.struct 0) oldTripVal w :=
  C98_query bindO oldTripEnv (f := 4) (g := 4) (Nat.le_refl _) (oldTrip_sendable false).1 (oldTrip_sendable false).2 (by decide +kernel)
    (fun _ => none) (fun _ => rfl)

/-- Where the two mappers differ: `Bind` gives every nil pointer to a struct a new struct, `Bind2` leaves it nil. -/
example : same (mapForm bindO tripEnv [] [] b!"form" 2 (.struct 0) .zero).2
      (.struct [.zero, .bool true, .zero, .zero, .struct [.zero], .ptr (.struct [.zero]), .zero]) = true ∧
    same (bind2 bindO tripEnv 5 (fun _ => none) ⟨[], [], false⟩ b!"form" 0 .zero).2
      (.struct [.zero, .bool true, .zero, .zero, .zero, .zero, .zero]) = true := by decide +kernel

/-- `type T struct { ID int8; Sub *U }`, `type U struct { A string }` -/
def bothEnv : TyEnv := fun n => if n = 0 then [fld b!"ID" b!"id" (.int 8), fld b!"Sub" [] (.ptr (.struct 1))] else [fld b!"A" b!"a" .string]

/-- the hypotheses of `C98_agree` are met -/
example : ∃ w w', bindForm bindO bothEnv 4 (fun _ => none) (.struct 0 .zero) [(b!"id", [b!"-5"]), (b!"a", [b!"x"]), (b!"more", [b!"y"])] [] b!"form" =
      (.ok, .struct 0 w) ∧
    bind2 bindO bothEnv 5 (fun _ => none) ⟨[(b!"id", [b!"-5"]), (b!"a", [b!"x"]), (b!"more", [b!"y"])], [], false⟩ b!"form" 0 .zero = (.ok, w') ∧
    SameVal bothEnv (.struct 0) (.struct [.int (-5), .ptr (.struct [.string b!"x"])]) w ∧
    SameVal bothEnv (.struct 0) (.struct [.int (-5), .ptr (.struct [.string b!"x"])]) w' := by
  refine C98_agree bindO bothEnv b!"form" (f := 4) (Nat.le_refl _) ⟨trivial, rfl, ?_⟩ (by decide +kernel)
    (.inr ⟨by decide, .inr (by decide), trivial, rfl, ?_⟩) (by decide +kernel) (by decide +kernel) (by decide +kernel) ?_ ?_
  · intro i fd x h1 h2
    have hi : i = 0 ∨ i = 1 := by
      have : i < 2 := (List.getElem?_eq_some_iff.1 h1).1
      omega
    rcases hi with rfl | rfl <;> cases h1 <;> cases h2
    · exact .inr ⟨rfl, rfl, by decide +kernel, ⟨by decide, by decide⟩, trivial, ⟨by decide, by decide⟩⟩
    · refine .inr ⟨rfl, (show bindName (fld b!"Sub" [] (.ptr (.struct 1))) b!"form" = none by decide +kernel), _, rfl, trivial, rfl, ?_⟩
      intro i fd x h1 h2
      have hi : i = 0 := by
        have : i < 1 := (List.getElem?_eq_some_iff.1 h1).1
        omega
      subst hi
      cases h1
      cases h2
      exact .inr ⟨rfl, rfl, by decide +kernel, trivial, trivial, trivial⟩
  · intro i fd x h1 h2
    have hi : i = 0 ∨ i = 1 := by
      have : i < 2 := (List.getElem?_eq_some_iff.1 h1).1
      omega
    rcases hi with rfl | rfl <;> cases h1 <;> cases h2
    · exact .inr ⟨rfl, .inr ⟨by decide, rfl, by decide +kernel, ⟨by decide, by decide⟩, ⟨by decide, by decide⟩, trivial, ⟨by decide, by decide⟩⟩⟩
    · refine .inr ⟨rfl, .inr ⟨by decide, .inr ⟨rfl, _, rfl, .inr ⟨by decide, .inr (by decide +kernel), trivial, rfl, ?_⟩, by decide +kernel⟩⟩⟩
      intro i fd x h1 h2
      have hi : i = 0 := by
        have : i < 1 := (List.getElem?_eq_some_iff.1 h1).1
        omega
      subst hi
      cases h1
      cases h2
      exact .inr ⟨rfl, .inr ⟨by decide, rfl, by decide +kernel, trivial, trivial, trivial, trivial⟩⟩
  all_goals decide +kernel

end Demo
end Water
