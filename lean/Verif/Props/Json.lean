import Verif.Lemmas.Json
import Verif.Props.Response
import Verif.Props.Sniff
/-
C138: what `JSON` sends says the value.
-/
namespace Water
open Spec
variable {ω : Type}

theorem blank_newline : JsonBlank [10] := by unfold JsonBlank; decide

theorem encodeJson_says {v : GVal} {j : JTree} (h : Shows v j) : JsonDoc (encodeJson v) j :=
  ⟨[], v.encode, [10], blank_nil, (encode_says h).1, blank_newline, by simp [encodeJson]⟩

/-- C138 as stated: a string that is sent is the string that the text says. -/
def C138_claim : Prop := ∀ s : Str, JsonDoc (encodeJson (.string s)) (.str s)

/-- C138: every value whose numbers are finite has a text, and the text is JSON and says the value: the same booleans, integers and
numbers, strings without what is not UTF-8, arrays for slices and objects for structs and maps; and it says nothing else. -/
theorem C138_says {N : Str → Prop} {v : GVal} (h : GMade N NumText v) :
    ∃ j, Shows v j ∧ ∀ j', JsonDoc (encodeJson v) j' ↔ j' = j := by
  obtain ⟨j, hj, -⟩ := shows_total h
  refine ⟨j, hj, fun j' => ⟨fun h' => jsonText_unique h' (encodeJson_says hj), ?_⟩⟩
  rintro rfl
  exact encodeJson_says hj

/-- C138: a value is shown in one way only. -/
theorem C138_shown {v : GVal} {j j' : JTree} (h : Shows v j) (h' : Shows v j') : j = j' :=
  jsonText_unique (encodeJson_says h) (encodeJson_says h')

/-- C138: no text of JSON says two things, so that everyone who reads it by the rules finds the same. -/
theorem C138_one {t : Str} {j j' : JTree} (h : JsonDoc t j) (h' : JsonDoc t j') : j = j' := jsonText_unique h h'

/-- C138 (partial): a string arrives as it is exactly if it is valid UTF-8; otherwise the bytes that belong to no character are replaced.
Missing: the other strings, see `C138_refuted`. -/
theorem C138_string_partial (s : Str) : JsonDoc (encodeJson (.string s)) (.str s) ↔ ValidUtf8 s := by
  constructor
  · intro h
    obtain ⟨t, ht⟩ := cleaned_total _ s (Nat.le_refl _)
    have := jsonText_unique h (encodeJson_says (.string ht))
    cases this
    exact valid_cleaned ht
  · intro h
    exact encodeJson_says (.string (cleaned_valid h))

/-- C138: so two valid strings with the same text are the same. -/
theorem C138_strings {s s' : Str} (h : ValidUtf8 s) (h' : ValidUtf8 s') (e : encodeJson (.string s) = encodeJson (.string s')) : s = s' := by
  have := jsonText_unique ((C138_string_partial s).2 h) (e ▸ (C138_string_partial s').2 h')
  cases this; rfl

/-- C138: the text is one line of UTF-8 without `<`, `>` and `&`, and without the line separators of JavaScript, whatever the strings are, if
the names of fields are such. -/
theorem C138_safe {v : GVal} (h : GMade PageSafe NumText v) : ∃ t, encodeJson v = t ++ [10] ∧ PageSafe t := ⟨_, rfl, (encode_pageSafe h).1⟩

theorem receivedBody_pieces (l : List Str) : receivedBody (l.map WEvent.body) = l.flatten := by
  induction l with
  | nil => rfl
  | cons d l ih => rw [List.map_cons, receivedBody, ih, List.flatten_cons]

/-- C138: the client gets the code and this text, in whatever pieces the encoder writes it. -/
theorem C138_sent (o : Oracle) (req : Req) (nx : St ω → Out × St ω) (i : Nat) (s : St ω) {code : Int} {pieces : List Str} {v : GVal}
    (hp : pieces.flatten = encodeJson v) (hc : o.bad code = false) (hw : s.ctx.written = false) (hl : s.rw.log = []) :
    ∃ s', exec o req nx i (.json code pieces .ret) s = (.ret, s') ∧ s'.ctx.status = code ∧
      (∃ h rest, s'.rw.log = .status true code h :: rest) ∧ receivedBody s'.rw.log = encodeJson v := by
  obtain ⟨s', h1, h2, -, -, h5, -⟩ := C31_helpers_partial o req nx i s (.json pieces) hc hw hl
  refine ⟨s', h1, h5, ⟨_, _, h2⟩, ?_⟩
  rw [h2, receivedBody, receivedBody_pieces, hp]

theorem jsonInner_of {t s : Str} (h : StrText t s) : JsonInner t := by
  have hex : ∀ {h : Str} {n : Nat}, Hex4 h n → ∃ x y z w : UInt8, h = [x, y, z, w] ∧ ∀ c ∈ [x, y, z, w], c ∈ b!"0123456789abcdefABCDEF" := by
    rintro h n ⟨a, b, c, d, w, x, y, z, rfl, h1, h2, h3, h4, -⟩
    have key : ∀ c : UInt8, (digitOf c).isSome = true → c ∈ b!"0123456789abcdefABCDEF" := by apply all_bytes; decide +kernel
    refine ⟨a, b, c, d, rfl, ?_⟩
    intro e he
    simp only [List.mem_cons, List.not_mem_nil, or_false] at he
    rcases he with rfl | rfl | rfl | rfl
    · exact key _ (by rw [h1]; rfl)
    · exact key _ (by rw [h2]; rfl)
    · exact key _ (by rw [h3]; rfl)
    · exact key _ (by rw [h4]; rfl)
  induction h with
  | nil => exact .nil
  | plain h1 h2 h3 _ ih => exact .char (UInt8.le_iff_toNat_le.1 h1) h2 h3 ih
  | esc h1 _ ih => exact .short ((by decide : ∀ p ∈ escapes, p.1 ∈ b!"\"\\/bfnrt") _ h1) ih
  | uni h1 _ _ ih =>
    obtain ⟨x, y, z, w, rfl, h⟩ := hex h1
    exact .long h ih
  | pair h1 h2 _ _ _ _ _ ih =>
    obtain ⟨x, y, z, w, rfl, h⟩ := hex h1
    obtain ⟨x', y', z', w', rfl, h'⟩ := hex h2
    exact .long h (.long h' ih)

theorem jsonNumber_of {t : Str} (h : NumText t) : JsonNumber t := by
  have run : ∀ {s : Str}, SomeDigits s → DigitRun s := by
    rintro s ⟨hne, hs⟩
    have key : ∀ c ∈ decimals, 48 ≤ c.toNat ∧ c.toNat ≤ 57 := by decide
    induction s with
    | nil => exact absurd rfl hne
    | cons c s ih =>
      obtain ⟨h1, h2⟩ := key c (hs c List.mem_cons_self)
      cases s with
      | nil => exact .one h1 h2
      | cons d s => exact .more h1 h2 (ih (by simp) (fun x hx => hs x (List.mem_cons_of_mem _ hx)))
  obtain ⟨sign, i, frac, exp, rfl, h1, h2, h3, h4⟩ := h
  refine .mk h1 ?_ ?_ ?_ ?_
  · rcases h2 with rfl | ⟨h2, -⟩
    · exact .one (by decide) (by decide)
    · exact run h2
  · rcases h2 with rfl | ⟨-, h2⟩
    · intro _; rfl
    · intro h; exact absurd h h2
  · rcases h3 with rfl | ⟨d, h3, rfl⟩
    · exact .inl rfl
    · exact .inr ⟨d, run h3, rfl⟩
  · rcases h4 with rfl | ⟨e, s, d, h5, h6, h7, rfl⟩
    · exact .inl rfl
    · refine .inr ⟨[e], ?_, s, ?_, d, run h7, rfl⟩
      · rcases h5 with rfl | rfl <;> decide
      · rcases h6 with rfl | rfl | rfl <;> decide

/-- What is written for the elements, fields or entries of a value is made of values with commas between them. -/
def JsonParts : GVal → Prop
  | .list l => ∃ xs, elementsJson l = commas xs ∧ (xs = [] ↔ l = []) ∧ ∀ x ∈ xs, Spec.Json x
  | .fields l => ∃ kvs : List (Str × Str), fieldsJson l = commas (kvs.map (fun p => p.1 ++ b!":" ++ p.2)) ∧ (kvs = [] ↔ l = []) ∧
      (∀ p ∈ kvs, JsonText p.1) ∧ ∀ p ∈ kvs, Spec.Json p.2
  | .map l => ∃ kvs : List (Str × Str), entriesJson l = commas (kvs.map (fun p => p.1 ++ b!":" ++ p.2)) ∧ (kvs = [] ↔ l = []) ∧
      (∀ p ∈ kvs, JsonText p.1) ∧ ∀ p ∈ kvs, Spec.Json p.2
  | _ => True

theorem commas_cons {x : Str} {xs : List Str} (h : xs ≠ []) : commas (x :: xs) = x ++ 44 :: commas xs := by
  cases xs with
  | nil => exact absurd rfl h
  | cons y ys => rw [commas]; simp; simp

theorem cons_all {α : Type} {P : α → Prop} {a : α} {l : List α} (h : P a) (h' : ∀ x ∈ l, P x) : ∀ x ∈ a :: l, P x := by
  intro x hx
  rcases List.mem_cons.1 hx with rfl | hx
  · exact h
  · exact h' x hx

theorem encode_json {N : Str → Prop} {v : GVal} (h : GMade N NumText v) : Spec.Json v.encode ∧ JsonParts v := by
  have str : ∀ s, JsonText (jsonString s) := by
    intro s
    obtain ⟨t, ht⟩ := cleaned_total _ s (Nat.le_refl _)
    exact .mk (jsonInner_of (jsonStrF_text ht _ (Nat.le_refl _)))
  have name : ∀ s, JsonText (jsonName s) := fun s => .mk (jsonInner_of (jsonName_text s))
  induction h with
  | nil => rw [GVal.encode]; exact ⟨.null, trivial⟩
  | bool b => rw [GVal.encode]; exact ⟨by cases b; exact .no; exact .yes, trivial⟩
  | int i => rw [GVal.encode]; exact ⟨.number (jsonNumber_of (numText_int (itoa_digits i))), trivial⟩
  | float h => rw [GVal.encode]; exact ⟨.number (jsonNumber_of h), trivial⟩
  | string s => rw [GVal.encode]; exact ⟨.text (str s), trivial⟩
  | list0 =>
    have hp : JsonParts (.list []) := ⟨[], by rw [elementsJson]; rfl, by simp, by simp⟩
    exact ⟨by rw [GVal.encode, elementsJson]; exact .array (xs := []) (by simp), hp⟩
  | @list v l _ _ ih1 ih2 =>
    obtain ⟨xs, h1, h2, h3⟩ := ih2.2
    have hp : elementsJson (v :: l) = commas (v.encode :: xs) := by
      cases l with
      | nil => rw [h2.2 rfl, elementsJson]; simp [commas]
      | cons w l => rw [elementsJson, commas_cons (fun e => absurd (h2.1 e) (by simp)), ← h1]
    have ha := cons_all ih1.1 h3
    refine ⟨?_, v.encode :: xs, hp, by simp, ha⟩
    rw [GVal.encode, hp]
    exact .array ha
  | fields0 =>
    have hp : JsonParts (.fields []) := ⟨[], by rw [fieldsJson]; rfl, by simp, by simp, by simp⟩
    exact ⟨by rw [GVal.encode, fieldsJson]; exact .object (kvs := []) (by simp) (by simp), hp⟩
  | @fields k v l _ _ _ ih1 ih2 =>
    obtain ⟨xs, h1, h2, h3, h4⟩ := ih2.2
    have hp : fieldsJson ((k, v) :: l) = commas (((jsonName k, v.encode) :: xs).map (fun p => p.1 ++ b!":" ++ p.2)) := by
      cases l with
      | nil => rw [h2.2 rfl, fieldsJson]; simp [commas]
      | cons w l =>
        rw [fieldsJson, List.map_cons, commas_cons (fun e => absurd (h2.1 (List.map_eq_nil_iff.1 e)) (by simp)), ← h1]
        simp
    have ha := cons_all (P := fun p : Str × Str => JsonText p.1) (a := (jsonName k, v.encode)) (name k) h3
    have hb := cons_all (P := fun p : Str × Str => Spec.Json p.2) (a := (jsonName k, v.encode)) ih1.1 h4
    refine ⟨?_, (jsonName k, v.encode) :: xs, hp, by simp, ha, hb⟩
    rw [GVal.encode, hp]
    exact .object ha hb
  | map0 =>
    have hp : JsonParts (.map []) := ⟨[], by rw [entriesJson]; rfl, by simp, by simp, by simp⟩
    exact ⟨by rw [GVal.encode, entriesJson]; exact .object (kvs := []) (by simp) (by simp), hp⟩
  | @map k v l _ _ ih1 ih2 =>
    obtain ⟨xs, h1, h2, h3, h4⟩ := ih2.2
    have hp : entriesJson ((k, v) :: l) = commas (((jsonString k, v.encode) :: xs).map (fun p => p.1 ++ b!":" ++ p.2)) := by
      cases l with
      | nil => rw [h2.2 rfl, entriesJson]; simp [commas]
      | cons w l =>
        rw [entriesJson, List.map_cons, commas_cons (fun e => absurd (h2.1 (List.map_eq_nil_iff.1 e)) (by simp)), ← h1]
        simp
    have ha := cons_all (P := fun p : Str × Str => JsonText p.1) (a := (jsonString k, v.encode)) (str k) h3
    have hb := cons_all (P := fun p : Str × Str => Spec.Json p.2) (a := (jsonString k, v.encode)) ih1.1 h4
    refine ⟨?_, (jsonString k, v.encode) :: xs, hp, by simp, ha, hb⟩
    rw [GVal.encode, hp]
    exact .object ha hb

/-- C138: so no value is shown as a page by a browser, although `JSON` sends no Content-Type of its own (C31, C130). -/
theorem C138_no_page {o : Oracle} (ho : o.detect = detectStd) (req : Req) (nx : St ω → Out × St ω) (i : Nat) {s : St ω} (hs : Unsaid s) {code : Int}
    (hc : o.bad code = false) (hb : ¬ Bodiless code) {N : Str → Prop} {v : GVal} (hv : GMade N NumText v) {pieces : List Str}
    (hp : pieces.flatten = encodeJson v) :
    label detectStd (exec o req nx i (.json code pieces .ret) s).2.rw.log ≠ some b!"text/html; charset=utf-8" :=
  C130_json_no_page ho req nx i hs hc hb (encode_json hv).1 hp

/-- C138 as stated does not hold: the byte FF alone is not sent. -/
theorem C138_refuted : ¬ C138_claim := by
  intro h
  have h0 := (C138_string_partial [0xFF]).1 (h [0xFF])
  have := cleaned_unique (cleaned_valid h0) (Cleaned.bad (bad_of_decode (by decide)) .nil)
  exact absurd this (by decide)

/-- The names of fields are not made safe for pages: a field named `<b>` is written as it is. -/
theorem C138_names_refuted : ¬ ∀ v : GVal, GMade (fun _ => True) NumText v → ∃ t, encodeJson v = t ++ [10] ∧ (60 : UInt8) ∉ t := by
  intro h
  obtain ⟨t, ht, hn⟩ := h (.fields [(b!"<b>", .nil)]) (.fields trivial .nil .fields0)
  have e : encodeJson (.fields [(b!"<b>", .nil)]) = b!"{\"<b>\":null}" ++ [10] := by
    simp only [encodeJson, GVal.encode, fieldsJson]; decide
  rw [e] at ht
  have := List.append_inj_left' ht rfl
  rw [← this] at hn
  exact hn (by decide)

namespace Demo

/-- An object with a script in a string, a list of numbers and a string that is not UTF-8. -/
def reply : GVal :=
  .map [(b!"err", .nil), (b!"list", .list [.int 7, .int (-12), .float b!"2.5e+21"]), (b!"ok", .bool true),
    (b!"text", .string (b!"</script>\n" ++ [0xFF])), (b!"user", .fields [(b!"Name", .string [0xC3, 0xA9]), (b!"Tags", .list [])])]

theorem replyText : encodeJson reply =
    b!"{\"err\":null,\"list\":[7,-12,2.5e+21],\"ok\":true,\"text\":\"\\u003c/script\\u003e\\n\\ufffd\",\"user\":{\"Name\":\"" ++ [0xC3, 0xA9] ++
      b!"\",\"Tags\":[]}}\n" := by
  simp only [encodeJson, reply, GVal.encode, fieldsJson, entriesJson, elementsJson]
  decide +kernel

theorem reply_float : NumText b!"2.5e+21" :=
  ⟨[], b!"2", b!".5", b!"e+21", rfl, .inl rfl, .inr ⟨⟨by decide, by decide⟩, by decide⟩, .inr ⟨b!"5", ⟨by decide, by decide⟩, rfl⟩,
    .inr ⟨101, b!"+", b!"21", .inl rfl, .inr (.inl rfl), ⟨by decide, by decide⟩, rfl⟩⟩

/-- Beside `C138_says` and `C138_safe`: a value with all kinds of parts. -/
theorem C138_demo : GMade PageSafe NumText reply :=
  .map .nil (.map (.list (.int _) (.list (.int _) (.list (.float reply_float) .list0))) (.map (.bool _) (.map (.string _)
    (.map (.fields (pageSafe_ascii (by decide)) (.string _) (.fields (pageSafe_ascii (by decide)) .list0 .fields0)) .map0))))

/-- Beside `C138_string_partial`: a string with characters of one to four bytes. -/
theorem C138_demo_string : ValidUtf8 (b!"a<" ++ [0xC3, 0xA9, 0xE2, 0x80, 0xA8, 0xF0, 0x9F, 0x98, 0x80]) ∧
    encodeJson (.string (b!"a<" ++ [0xC3, 0xA9, 0xE2, 0x80, 0xA8, 0xF0, 0x9F, 0x98, 0x80])) =
      b!"\"a\\u003c" ++ [0xC3, 0xA9] ++ b!"\\u2028" ++ [0xF0, 0x9F, 0x98, 0x80] ++ b!"\"\n" :=
  ⟨⟨[97, 60, 0xE9, 0x2028, 0x1F600], by unfold CodePoint; decide, by decide⟩, by simp only [encodeJson, GVal.encode]; decide +kernel⟩

/-- Beside `C138_one`: a text with white space, an escape of two units, and members in any order. -/
theorem C138_demo_text : ∃ j, JsonDoc b!" { \"k\" : [ true , \"\\ud83d\\ude00\" ] }\r\n" j := by
  refine ⟨.obj [(b!"k", .arr [.bool true, .str (charBytes 0x1F600)])], b!" ", b!"{ \"k\" : [ true , \"\\ud83d\\ude00\" ] }", b!"\r\n",
    by unfold JsonBlank; decide, ?_, by unfold JsonBlank; decide, rfl⟩
  have hs : StrText b!"\\ud83d\\ude00" (charBytes 0x1F600) :=
    StrText.pair (h := b!"d83d") (l := b!"de00") (m := 0xD83D) (n := 0xDE00) (t := []) (s := [])
      ⟨_, _, _, _, 13, 8, 3, 13, rfl, by decide, by decide, by decide, by decide, by decide⟩
      ⟨_, _, _, _, 13, 14, 0, 0, rfl, by decide, by decide, by decide, by decide, by decide⟩
      (by decide) (by decide) (by decide) (by decide) .nil
  have hk : StrText b!"k" b!"k" := .plain (by decide) (by decide) (by decide) .nil
  have he : Denotes .elements b!" true , \"\\ud83d\\ude00\" " (.arr [.bool true, .str (charBytes 0x1F600)]) :=
    Denotes.elements (a := b!" ") (b := b!" ") (by unfold JsonBlank; decide) .true (by unfold JsonBlank; decide)
      (Denotes.element (a := b!" ") (b := b!" ") (by unfold JsonBlank; decide) (.str hs) (by unfold JsonBlank; decide))
  exact .obj (Denotes.member (a := b!" ") (b := b!" ") (c := b!" ") (d := b!" ") (by unfold JsonBlank; decide) hk (by unfold JsonBlank; decide)
    (by unfold JsonBlank; decide) (.arr he) (by unfold JsonBlank; decide))

end Demo
end Water
