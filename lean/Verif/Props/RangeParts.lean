import Verif.Model.RangeParts
import Verif.Lemmas.MultipartForm
import Verif.Props.Ranges
/-
C153: a client finds the ranges that it asked for in the answer.
-/
namespace Water
open Spec Demo
variable {ω : Type}

/-- a part on its way: the lines of its header, how these are read, and the bytes -/
structure WirePart where
  head : Str
  bytes : Str
  header : Header

def WirePart.wire (B : Str) (c : WirePart) : Str := b!"--" ++ B ++ b!"\r\n" ++ c.head ++ b!"\r\n" ++ c.bytes ++ b!"\r\n"

/-- the header is read, and the boundary is not in the bytes -/
def WirePart.Good (B : Str) (c : WirePart) : Prop :=
  (∀ rest, readMIMEHeader (c.head ++ b!"\r\n" ++ rest) = .ok c.header rest) ∧ ¬ (b!"--" ++ B) <:+: c.bytes

theorem wired_begin {B T : Str} (hT : Tail B T) (cs : List WirePart) :
    ∃ r, cs.flatMap (WirePart.wire B) ++ T = b!"--" ++ B ++ r ∧ afterBoundary r = true := by
  cases cs with
  | nil => exact hT.begins
  | cons c cs =>
    refine ⟨b!"\r\n" ++ c.head ++ b!"\r\n" ++ c.bytes ++ b!"\r\n" ++ (cs.flatMap (WirePart.wire B) ++ T), ?_, rfl⟩
    simp [WirePart.wire]

theorem wired_one {B T : Str} {c : WirePart} {cs : List WirePart} {nl : Str} {first : Bool} {s : Str} (hB : BoundaryText B)
    (hT : Tail B T) (hc : c.Good B) (fuel : Nat)
    (hs : nextBoundary B (s.length + 1) nl first false s =
      .part b!"\r\n" (c.head ++ b!"\r\n" ++ (c.bytes ++ b!"\r\n" ++ (cs.flatMap (WirePart.wire B) ++ T)))) :
    rawParts B (fuel + 1) nl first s =
      (rawParts B fuel b!"\r\n" false (b!"\r\n" ++ (cs.flatMap (WirePart.wire B) ++ T))).map (⟨c.header, c.bytes⟩ :: ·) := by
  rw [rawParts, hs]
  dsimp only
  rw [hc.1]
  dsimp only
  obtain ⟨r, hr, ha⟩ := wired_begin hT cs
  rw [hr]
  have e : c.bytes ++ b!"\r\n" ++ (b!"--" ++ B ++ r) = c.bytes ++ b!"\r\n" ++ (b!"--" ++ B) ++ r := by simp
  rw [e, partData_eq hB hc.2 ha]
  dsimp only
  have e2 : b!"\r\n" ++ (b!"--" ++ B) ++ r = b!"\r\n" ++ (b!"--" ++ B ++ r) := by simp
  rw [e2]

theorem wired_all {B T : Str} (hB : BoundaryText B) (hT : Tail B T) (cs : List WirePart) (hc : ∀ c ∈ cs, c.Good B) (fuel : Nat)
    (hf : cs.length < fuel) :
    rawParts B fuel b!"\r\n" true (cs.flatMap (WirePart.wire B) ++ T) = some (cs.map (fun c => ⟨c.header, c.bytes⟩)) := by
  have later : ∀ (cs : List WirePart), (∀ c ∈ cs, c.Good B) → ∀ fuel, cs.length < fuel →
      rawParts B fuel b!"\r\n" false (b!"\r\n" ++ (cs.flatMap (WirePart.wire B) ++ T)) = some (cs.map (fun c => ⟨c.header, c.bytes⟩)) := by
    intro cs
    induction cs with
    | nil =>
      intro _ fuel hf
      obtain ⟨n, rfl⟩ : ∃ n, fuel = n + 1 := ⟨fuel - 1, by simp at hf; omega⟩
      exact hT.later n
    | cons c cs ih =>
      intro hc fuel hf
      obtain ⟨n, rfl⟩ : ∃ n, fuel = n + 1 := ⟨fuel - 1, by simp at hf; omega⟩
      rw [wired_one (c := c) (cs := cs) hB hT (hc c (List.mem_cons_self ..)), ih (fun x hx => hc x (List.mem_cons_of_mem _ hx)) n (by simp at hf; omega)]
      · rfl
      · have e : b!"\r\n" ++ ((c :: cs).flatMap (WirePart.wire B) ++ T) =
            b!"\r\n" ++ (b!"--" ++ B ++ b!"\r\n" ++ (c.head ++ b!"\r\n" ++ (c.bytes ++ b!"\r\n" ++ (cs.flatMap (WirePart.wire B) ++ T)))) := by
          simp [WirePart.wire]
        rw [e]
        rw [next_empty]
        rw [List.length_append, show (b!"\r\n").length = 1 + 1 from rfl, Nat.add_comm (1 + 1), ← Nat.add_assoc]
        exact next_first hB _ _ _ _
  cases cs with
  | nil =>
    obtain ⟨n, rfl⟩ : ∃ n, fuel = n + 1 := ⟨fuel - 1, by simp at hf; omega⟩
    exact hT.first n
  | cons c cs =>
    obtain ⟨n, rfl⟩ : ∃ n, fuel = n + 1 := ⟨fuel - 1, by simp at hf; omega⟩
    rw [wired_one (c := c) (cs := cs) hB hT (hc c (List.mem_cons_self ..)), later cs (fun x hx => hc x (List.mem_cons_of_mem _ hx)) n (by simp at hf; omega)]
    · rfl
    · have e : (c :: cs).flatMap (WirePart.wire B) ++ T =
          b!"--" ++ B ++ b!"\r\n" ++ (c.head ++ b!"\r\n" ++ (c.bytes ++ b!"\r\n" ++ (cs.flatMap (WirePart.wire B) ++ T))) := by
        simp [WirePart.wire]
      rw [e]
      exact next_first hB _ _ _ _

/-- one line of text without blanks around it -/
def PlainLine (s : Str) : Prop := 10 ∉ s ∧ (∀ c, s.head? = some c → blankB c = false) ∧ (∀ c, s.getLast? = some c → blankB c = false)

theorem cut_line {s : Str} (h : PlainLine s) (hne : s ≠ []) : (cutBlank (32 :: s)).dropWhile blankB = s := by
  obtain ⟨_, h2, h3⟩ := h
  have e1 : cutBlank (32 :: s) = 32 :: s := by
    have := List.dropLast_concat_getLast hne
    rw [← this, ← List.cons_append, cutBlank_end]
    exact h3 _ (List.getLast?_eq_some_getLast hne)
  rw [e1]
  cases s with
  | nil => exact absurd rfl hne
  | cons c s =>
    rw [List.dropWhile_cons_of_pos (by decide), List.dropWhile_cons_of_neg (by rw [h2 c rfl]; simp)]

/-- the header of a part -/
def partFields (cr ctype : Str) : Header := (Header.add Map.empty b!"Content-Range" cr).add b!"Content-Type" ctype

theorem part_head {cr ctype : Str} (h1 : PlainLine cr) (n1 : cr ≠ []) (h2 : PlainLine ctype) (n2 : ctype ≠ []) (rest : Str) :
    readMIMEHeader ((b!"Content-Range: " ++ cr ++ b!"\r\nContent-Type: " ++ ctype ++ b!"\r\n") ++ b!"\r\n" ++ rest) =
      .ok (partFields cr ctype) rest := by
  unfold readMIMEHeader
  have hfirst : (((b!"Content-Range: " ++ cr ++ b!"\r\nContent-Type: " ++ ctype ++ b!"\r\n") ++ b!"\r\n" ++ rest).head?.map blankB).getD false =
      false := rfl
  rw [if_neg (by rw [hfirst]; decide)]
  have e : (b!"Content-Range: " ++ cr ++ b!"\r\nContent-Type: " ++ ctype ++ b!"\r\n") ++ b!"\r\n" ++ rest =
      b!"Content-Range" ++ [colon] ++ (32 :: cr) ++ b!"\r\n" ++ (b!"Content-Type" ++ [colon] ++ (32 :: ctype) ++ b!"\r\n" ++ (b!"\r\n" ++ rest)) := by
    simp
  have hl : ∃ n, (b!"Content-Range" ++ [colon] ++ (32 :: cr) ++ b!"\r\n" ++ (b!"Content-Type" ++ [colon] ++ (32 :: ctype) ++ b!"\r\n" ++
      (b!"\r\n" ++ rest))).length + 1 = n + 1 + 1 + 1 := by
    refine ⟨cr.length + ctype.length + rest.length + 33, ?_⟩
    simp only [List.length_append, List.length_cons, List.length_nil]
    omega
  obtain ⟨n, hl⟩ := hl
  have hsp : ∀ {s : Str}, PlainLine s → 10 ∉ (32 : UInt8) :: s := by
    intro s hs hm
    rcases List.mem_cons.1 hm with h | h
    · cases h
    · exact hs.1 h
  rw [e, hl, header_line _ _ (by decide) (by decide) (by decide) (by decide) (hsp h1) (by intro y hy; cases hy; decide),
    header_line _ _ (by decide) (by decide) (by decide) (by decide) (hsp h2) (by intro y hy; cases hy; decide), header_end, cut_line h1 n1, cut_line h2 n2]
  rfl

/-- the text of Content-Range -/
def rangeField (p : Nat × Nat) (size : Nat) : Str := b!"bytes " ++ itoaNat p.1 ++ b!"-" ++ itoaNat p.2 ++ b!"/" ++ itoaNat size

theorem rangeField_line (p : Nat × Nat) (size : Nat) : PlainLine (rangeField p size) ∧ rangeField p size ≠ [] := by
  have hd : ∀ n, ∀ c ∈ itoaNat n, c ≠ 10 ∧ blankB c = false := by
    have : ∀ c : UInt8, IsDigit c → c ≠ 10 ∧ blankB c = false := by
      unfold IsDigit
      refine all_bytes ?_
      decide +kernel
    exact fun n c hc => this c ((itoaNat_spec n).1.2 c hc)
  refine ⟨⟨?_, ?_, ?_⟩, by simp [rangeField]⟩
  · unfold rangeField
    simp only [List.mem_append, not_or]
    exact ⟨⟨⟨⟨⟨by decide, fun h => (hd _ _ h).1 rfl⟩, by decide⟩, fun h => (hd _ _ h).1 rfl⟩, by decide⟩, fun h => (hd _ _ h).1 rfl⟩
  · intro c hc
    have : c = 98 := by
      unfold rangeField at hc
      simpa using hc.symm
    rw [this]; decide
  · intro c hc
    unfold rangeField at hc
    rw [List.getLast?_append, List.getLast?_eq_some_getLast (itoaNat_spec size).1.1] at hc
    rw [Option.some_or, ← List.getLast?_eq_some_getLast] at hc
    exact (hd size c (List.mem_of_getLast? hc)).2

/-- **C153 (several ranges).** A client that reads the answer with the reader of mime/multipart finds the bytes of each range in the file, in the
order in which they were asked for, each with its positions, the size and the type of the file. `B` is the random boundary, which must not be in
the file. -/
theorem C153_parts {rx : Regex} {o : Oracle} {io : ContentIO ω} {fs : FS ω} {opt : StaticOptions ω} {name : Str} {e : Engine (Prog ω)}
    (ha : FileApp rx o io fs opt name e) (h200 : o.bad 200 = false) (h206 : o.bad 206 = false) (h304 : o.bad 304 = false) (h416 : o.bad 416 = false)
    {v : CacheVisit ω} {i : FileInfo} {d : Str} (hv : VisitOf fs io opt name v i d) {t : Str} {l : List ByteSpec}
    (hr : RangeOnly v.req (b!"bytes=" ++ t)) (hl : SpecList l t) (hp : ∀ b ∈ l, b.Plain d.length) {B : Str} (hio : io.parts = writeParts B)
    (hB : BoundaryText B) (hd : ¬ (b!"--" ++ B) <:+: d) {type : Str}
    (ht : type = if io.typeOf name ≠ [] then io.typeOf name else o.detect (d.take 512)) (htl : PlainLine type) (htn : type ≠ [])
    {ps : List (Nat × Nat)} (hps : l.filterMap (·.within d.length) = ps) (h2 : 2 ≤ ps.length)
    (hsum : (ps.map (fun p => (between d p).length)).sum ≤ d.length) :
    received (answerAt rx o e v) = some 206 ∧
    (∃ h, receivedHeader (answerAt rx o e v) = some h ∧ fieldOf h b!"Content-Type" = some (b!"multipart/byteranges; boundary=" ++ B)) ∧
    rawParts B ((receivedBody (answerAt rx o e v)).length + 1) b!"\r\n" true (receivedBody (answerAt rx o e v)) =
      some (ps.map (fun p => ⟨partFields (rangeField p d.length) type, between d p⟩)) := by
  have hne : l ≠ [] := by
    rintro rfl
    rw [← hps] at h2
    simp at h2
  have hbd := list_bounds hl (size := d.length)
  obtain ⟨h, h1, key⟩ := C153_partial ha h200 h206 h304 h416 hv hr hl hne hp
  rw [hps] at key hbd
  obtain ⟨p, q, ps, rfl⟩ : ∃ p q r, ps = p :: q :: r := by
    match ps, h2 with
    | p :: q :: r, _ => exact ⟨p, q, r, rfl⟩
  dsimp only at key
  rw [if_neg (by omega), ← ht, hio] at key
  obtain ⟨k1, k2, k3⟩ := key
  refine ⟨k1, ⟨h, h1, k2⟩, ?_⟩
  rw [k3]
  generalize hall : p :: q :: ps = all at hbd
  have hw : (writeParts B type d (all.map spanOf)).2 =
      (all.map (fun p => (⟨b!"Content-Range: " ++ rangeField p d.length ++ b!"\r\nContent-Type: " ++ type ++ b!"\r\n", between d p,
        partFields (rangeField p d.length) type⟩ : WirePart))).flatMap (WirePart.wire B) ++ (b!"--" ++ B ++ b!"--\r\n" ++ []) := by
    unfold writeParts
    dsimp only
    rw [List.append_nil, List.append_assoc, List.append_assoc, List.append_assoc]
    congr 1
    clear hall
    induction all with
    | nil => rfl
    | cons x r ih =>
      rw [List.map_cons, List.map_cons, List.flatMap_cons, List.flatMap_cons, ih (fun y hy => hbd y (List.mem_cons_of_mem _ hy))]
      congr 1
      unfold writePart WirePart.wire
      rw [contentRange_text (hbd x (by simp)).1]
      rfl
  rw [hw, wired_all hB (final_tail hB []) _ _ _ _]
  · rw [List.map_map]
    rfl
  · intro c hc
    obtain ⟨x, _, rfl⟩ := List.mem_map.1 hc
    refine ⟨part_head (rangeField_line x d.length).1 (rangeField_line x d.length).2 htl htn, fun hi => hd ?_⟩
    exact hi.trans ((List.take_prefix _ _).isInfix.trans (List.drop_suffix _ _).isInfix)
  · have : ∀ cs : List WirePart, cs.length ≤ (cs.flatMap (WirePart.wire B)).length := by
      intro cs
      induction cs with
      | nil => simp
      | cons c cs ih =>
        rw [List.flatMap_cons, List.length_append, List.length_cons]
        have : 1 ≤ (c.wire B).length := by unfold WirePart.wire; simp
        omega
    have := this (all.map (fun p => (⟨b!"Content-Range: " ++ rangeField p d.length ++ b!"\r\nContent-Type: " ++ type ++ b!"\r\n", between d p,
        partFields (rangeField p d.length) type⟩ : WirePart)))
    rw [List.length_append]
    omega

namespace Demo

/-- the ranges are written as net/http does it -/
def partsIO : ContentIO (FileInfo × Str) := { stdIO with parts := writeParts b!"7d1f" }

def partsHttp : Http (FileInfo × Str) := { oneHttp with serveContent := serveContentStd partsIO chainO }

theorem partsApp : ∃ e, FileApp rx chainO partsIO oneFS (oneOpt 1) b!"f.txt" e := by
  have hb : (match runOps [] (.newRouter :: staticOps 0 oneFS partsHttp (oneOpt 1)) with
    | .error _ => false
    | .ok heap => match handler rx heap 0 [] with
      | .error _ => false
      | .ok _ => true) = true := by decide +kernel
  cases h1 : runOps [] (.newRouter :: staticOps 0 oneFS partsHttp (oneOpt 1)) with
  | error _ => rw [h1] at hb; cases hb
  | ok heap =>
    rw [h1] at hb
    dsimp only at hb
    cases h2 : handler rx heap 0 [] with
    | error _ => rw [h2] at hb; cases hb
    | ok e => exact ⟨e, alone_app (by decide) (by decide) (oneOrdinary 1) rfl h1 h2⟩

theorem askParts_of (fields : List (Str × Str)) (i : FileInfo) (d : Str) (hd : i.dir = false) :
    VisitOf oneFS partsIO (oneOpt 1) b!"f.txt" (askIf fields (i, d)) i d where
  routed := ⟨Or.inr ⟨rfl, Int.le_refl 1⟩, show b!"/static/f.txt" ≠ b!"*" by decide, List.mem_cons_self⟩
  path := show b!"/static/f.txt" = pathBelow (elems b!"/static") b!"f.txt" by decide +kernel
  file := ⟨_, _, _, rfl, rfl, hd, rfl⟩

/-- the first and the last byte -/
theorem twoRanges : SpecList [.fromTo (value b!"0") (value b!"0"), .last (value b!"1")] b!"0-0, -1" := by
  have hn : OWS [] := by intro c hc; cases hc
  have h1 : OWS b!" " := by intro c hc; left; simpa using hc
  have num : ∀ s : Str, s ≠ [] → (∀ c ∈ s, IsDigit c) → Numeral s := fun s a b => ⟨a, b⟩
  exact .more (w := []) (v := []) hn (.fromTo (num b!"0" (by simp) (by decide)) (num b!"0" (by simp) (by decide)) (by decide)) hn
    (.one (w := b!" ") (v := []) h1 (.last (num b!"1" (by simp) (by decide))) hn)

/-- `C153_parts`: a client finds them -/
theorem C153_parts_demo : ∃ e, FileApp rx chainO partsIO oneFS (oneOpt 1) b!"f.txt" e ∧
    (rawParts b!"7d1f" ((receivedBody (answerAt rx chainO e (askRange b!"bytes=0-0, -1"))).length + 1) b!"\r\n" true
      (receivedBody (answerAt rx chainO e (askRange b!"bytes=0-0, -1")))).map (·.map (·.data)) = some [b!"n", b!"w"] := by
  obtain ⟨e, h1⟩ := partsApp
  refine ⟨e, h1, ?_⟩
  rw [(C153_parts (B := b!"7d1f") (type := b!"text/plain; charset=utf-8") h1 rfl rfl rfl rfl
    (askParts_of [(b!"Range", b!"bytes=0-0, -1")] newInfo b!"new" rfl) (askRange_only _) twoRanges (by decide +kernel) rfl
    ⟨by decide, by decide, by decide⟩ (by decide +kernel) rfl ⟨by decide, by decide, by decide⟩ (by decide) rfl (by decide +kernel)
    (by decide +kernel)).2.2]
  decide +kernel

end Demo

end Water
