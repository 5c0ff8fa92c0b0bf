import Verif.Lemmas.HttpFormat
import Verif.Props.Rfc3339
import Verif.Props.Resume
/-
C129: the dates of files.
-/
namespace Water
open Spec
variable {ω : Type}

/-- net/http of Go 1.15 writes and reads the dates; how it reads the two obsolete formats is left open -/
def StdDates (io : ContentIO ω) (obsolete : Str → Option Int) : Prop := io.formatTime = formatHttp ∧ io.parseTime = parseHttp obsolete

/-- the years 0 to 9999, which have four digits -/
def FourDigits (t : Int) : Prop := -62167219200 ≤ second t ∧ second t < 253402300800

/-! ### the texts -/

/-- every second has a stamp -/
theorem stamp_exists {u : Int} (h1 : -62167219200 ≤ u) (h2 : u < 253402300800) :
    ∃ st : Stamp, st.date.y < 10000 ∧ st.date.Valid ∧ st.h < 24 ∧ st.min < 60 ∧ st.sec < 60 ∧ st.ns = 0 ∧ st.offset = 0 ∧ st.Unix u := by
  obtain ⟨n, hn⟩ : ∃ n : Nat, (n : Int) = (u + 62167219200) / 86400 := ⟨((u + 62167219200) / 86400).toNat, by omega⟩
  obtain ⟨r, hr⟩ : ∃ r : Nat, (r : Int) = (u + 62167219200) % 86400 := ⟨((u + 62167219200) % 86400).toNat, by omega⟩
  obtain ⟨D, hD⟩ := dayNo_total n
  obtain ⟨n0, hn0⟩ := dayNo_exists (D := ⟨1970, 1, 1⟩) ⟨by decide, by decide, by decide, by decide⟩
  have e0 : n0 = 719528 := by
    have e2 := dayNo_abs hn0
    dsimp only at e2
    rw [show absDays 1970 1 1 = absDays 0 1 1 + 719528 by decide +kernel] at e2
    omega
  refine ⟨⟨D, r / 3600, r / 60 % 60, r % 60, 0, 0⟩, dayNo_year hD (by omega), dayNo_valid hD, by show r / 3600 < 24; omega,
    by show r / 60 % 60 < 60; omega, by show r % 60 < 60; omega, rfl, rfl, n, n0, hD, hn0, ?_⟩
  show u = ((n : Int) - n0) * 86400 + ((r / 3600 : Nat) : Int) * 3600 + ((r / 60 % 60 : Nat) : Int) * 60 + ((r % 60 : Nat) : Int) - 0
  omega

theorem dayNo_number {n n' : Nat} {D : Date} (h : DayNo n D) (h' : DayNo n' D) : n = n' := by
  have e := dayNo_abs h
  have e' := dayNo_abs h'
  omega

theorem weekday_unique {D : Date} {w w' : Nat} (h : Weekday D w) (h' : Weekday D w') : w = w' := by
  obtain ⟨n, n0, a, b, e⟩ := h
  obtain ⟨n', n0', a', b', e'⟩ := h'
  rw [dayNo_number a' a, dayNo_number b' b] at e'
  omega

/-- C129: there is one text for a stamp. -/
theorem imf_unique {s s' : Str} {st : Stamp} (h : ImfDate s st) (h' : ImfDate s' st) : s = s' := by
  cases h with
  | mk _ _ _ _ _ _ _ w1 d1 m1 =>
    cases h' with
    | mk _ _ _ _ _ _ _ w2 d2 m2 =>
      rw [weekday_unique w2 w1, d1] at d2
      rw [m1] at m2
      cases d2
      cases m2
      rfl

/-- C129: what is written for a time in the years 0 to 9999 is the date of HTTP for its second: the right day of the week, day, month, year and
time of day. -/
theorem C129_written {t : Int} (h : FourDigits t) : ∃ st, ImfDate (formatHttp t) st ∧ st.Unix (second t) := by
  obtain ⟨st, h1, h2, h3, h4, h5, h6, h7, h8⟩ := stamp_exists h.1 h.2
  exact ⟨st, format_stamp h1 h2 h3 h4 h5 h6 h7 h8, h8⟩

/-- C129: and no other text is. -/
theorem C129_only {t : Int} {s : Str} {st : Stamp} (h : ImfDate s st) (hu : st.Unix (second t)) : formatHttp t = s := by
  refine imf_unique (st := st) ?_ h
  cases h with
  | mk h1 h2 h3 h4 h5 h6 h7 => exact format_stamp h1 h2 h3 h4 h5 h6 h7 hu

/-- C129: the texts that are read in the preferred format, and the times they are read as (in nanoseconds), exactly. -/
theorem C129_exact (s : Str) (v : Int) : parseImf s = some v ↔ ∃ t u, ReadsImf s t ∧ t.Unix u ∧ v = u * 1000000000 + t.ns := parseImf_iff s v

theorem anyCase_self (s : Str) : AnyCase s s := by
  induction s with
  | nil => exact .nil
  | cons a s ih => exact .cons (.inl rfl) ih

/-- a date of HTTP is among the texts that are read -/
theorem imf_reads {s : Str} {t : Stamp} (h : ImfDate s t) : ReadsImf s t := by
  cases h with
  | mk h1 h2 h3 h4 h5 h6 h7 h8 h9 h10 =>
    have := ReadsImf.mk (t := t) (fr := []) h1 h2 (.two h3) h4 h5 (.inl (by rw [h6]; exact .none)) h7 (List.mem_of_getElem? h9) (anyCase_self _) h10
      (anyCase_self _) .one .one .one .one .one
    simpa using this

/-- C129: each date of HTTP is read as the second that it is the date of. -/
theorem C129_read {s : Str} {t : Stamp} {u : Int} (h : ImfDate s t) (hu : t.Unix u) (obsolete : Str → Option Int) :
    parseHttp obsolete s = some (u * 1000000000) := by
  have h0 : t.ns = 0 := by cases h; assumption
  have := (parseImf_iff s (u * 1000000000)).2 ⟨t, u, imf_reads h, hu, by rw [h0]; omega⟩
  unfold parseHttp
  rw [this]

/-- C129: what is written is read back as the same second. -/
theorem C129_round {t : Int} (h : FourDigits t) (obsolete : Str → Option Int) : parseHttp obsolete (formatHttp t) = some (second t * 1000000000) := by
  obtain ⟨st, h1, h2⟩ := C129_written h
  exact C129_read h1 h2 obsolete

/-- C129: an earlier second is written as another text -/
theorem C129_differs {t t' : Int} (h : FourDigits t) (h' : FourDigits t') : formatHttp t = formatHttp t' ↔ second t = second t' := by
  constructor
  · intro e
    have a := C129_round h (fun _ => none)
    rw [e, C129_round h' (fun _ => none)] at a
    have := Option.some.inj a
    omega
  · intro e
    obtain ⟨st, h1, h2⟩ := C129_written h'
    exact C129_only h1 (by rw [e]; exact h2)

theorem digit_text {n : Nat} (h : n < 100) {c : UInt8} (hc : c ∈ two n) : c ≠ 34 := by
  have : ∀ n : Fin 100, ∀ c ∈ two n.1, c ≠ 34 := by decide +kernel
  exact this ⟨n, h⟩ c hc

/-- a date has no quotes -/
theorem imf_plain {s : Str} {t : Stamp} (h : ImfDate s t) : (34 : UInt8) ∉ s := by
  cases h with
  | @mk _ w dn mn h1 h2 h3 h4 h5 h6 h7 h8 h9 h10 =>
    have d1 : ∀ x ∈ dayNames, (34 : UInt8) ∉ x := by decide +kernel
    have m1 : ∀ x ∈ monthNames, (34 : UInt8) ∉ x := by decide +kernel
    have hd := d1 _ (List.mem_of_getElem? h9)
    have hm := m1 _ (List.mem_of_getElem? h10)
    have hv := (monthDays_pos t.date.y t.date.m).2
    have hq : ∀ n, n < 100 → (34 : UInt8) ∉ two n := fun n hn hc => digit_text hn hc rfl
    have hdd := hq t.date.d (by have := h2.2.2.2; omega)
    have ha := hq t.h (by omega)
    have hb := hq t.min (by omega)
    have hc := hq t.sec (by omega)
    have hy1 := hq (t.date.y / 100) (by omega)
    have hy2 : (34 : UInt8) ∉ two t.date.y := by
      have e : two t.date.y = two (t.date.y % 100) := by
        unfold two
        rw [show t.date.y % 100 / 10 % 10 = t.date.y / 10 % 10 by omega, show t.date.y % 100 % 10 = t.date.y % 10 by omega]
      rw [e]
      exact hq _ (Nat.mod_lt _ (by decide))
    unfold four
    simp [hd, hm, hdd, ha, hb, hc, hy1, hy2]

theorem imf_ne_nil {s : Str} {t : Stamp} (h : ImfDate s t) : s ≠ [] := by
  cases h
  simp

theorem imf_valid {s : Str} {t : Stamp} (h : ImfDate s t) : t.date.Valid := by
  cases h
  assumption

/-- The laws of dates that other theorems ask for hold of net/http. -/
theorem std_plain {io : ContentIO ω} {obsolete : Str → Option Int} (hio : StdDates io obsolete) {t : Int} (h : FourDigits t) : PlainDate io t := by
  obtain ⟨st, h1, _⟩ := C129_written h
  refine ⟨⟨?_, ?_⟩, ?_⟩
  · rw [hio.1]
    exact imf_ne_nil h1
  · rw [hio.1, hio.2]
    exact C129_round h obsolete
  · rw [hio.1]
    exact imf_plain h1

/-! ### the application -/

/-- C129: a file that is asked for is sent with the date of the second in which it was changed, except that a file of the very first nanosecond of
1970, or of the zero time of Go, has none. -/
theorem C129_served_partial {rx : Regex} {o : Oracle} {io : ContentIO ω} {obsolete : Str → Option Int} (hio : StdDates io obsolete) {fs : FS ω}
    {opt : StaticOptions ω} {name : Str} {e : Engine (Prog ω)} (ha : FileApp rx o io fs opt name e) (h200 : o.bad 200 = false)
    (h304 : o.bad 304 = false) {v : CacheVisit ω} {i : FileInfo} {d : Str} (hv : VisitOf fs io opt name v i d) (hask : Asks none v.req)
    (ht : FourDigits i.modTime) :
    received (answerAt rx o e v) = some 200 ∧ receivedBody (answerAt rx o e v) = d ∧ ∃ h, receivedHeader (answerAt rx o e v) = some h ∧
      if i.modTime = 0 ∨ i.modTime = -62135596800000000000 then dateOf h = none
      else ∃ s st, dateOf h = some s ∧ ImfDate s st ∧ st.Unix (second i.modTime) := by
  have hp := asks_plainly hask
  have hn : v.req.header.get b!"If-None-Match" = [] := hask.tag
  obtain ⟨w, hans⟩ := app_answer ha h200 h304 hv hp (Or.inl hn)
  generalize hL : answerAt rx o e v = L at hans ⊢
  have hfield := field_tagged opt i w
  cases hans with
  | tag h1 h2 => rw [hn] at h2; exact absurd h2.symm (staticTag_ne_nil _ _)
  | old h1 h2 =>
    rw [conditions_untagged hp hn, if_neg (by rw [hask.date]; simp)] at h2
    cases h2
  | file h1 h2 =>
    obtain ⟨r1, r2, r3⟩ := received_sent 200 (wholeHeader io o name i.modTime d (taggedHeader opt i (startHeader opt w))) d
    obtain ⟨f1, f2⟩ := field_whole io o name i.modTime d hfield.2
    refine ⟨r1, r3, _, r2, ?_⟩
    unfold dateOf
    rw [f2, hio.1]
    have hz : isZeroTime i.modTime = true ↔ i.modTime = 0 ∨ i.modTime = -62135596800000000000 := by
      unfold isZeroTime
      simp only [Bool.or_eq_true, beq_iff_eq]
      exact Or.comm
    by_cases hc : i.modTime = 0 ∨ i.modTime = -62135596800000000000
    · rw [if_pos hc, if_pos (hz.2 hc)]
    · rw [if_neg hc, if_neg (fun h => hc (hz.1 h))]
      obtain ⟨st, g1, g2⟩ := C129_written ht
      exact ⟨_, st, rfl, g1, g2⟩

/-- C129: a client that asks whether the file has changed since a moment is told that it has not exactly if the second in which the file was changed
is not later. Not so for files of the very first nanosecond of 1970 or of the zero time of Go: they are always sent. -/
theorem C129_since_partial {rx : Regex} {o : Oracle} {io : ContentIO ω} {obsolete : Str → Option Int} (hio : StdDates io obsolete) {fs : FS ω}
    {opt : StaticOptions ω} {name : Str} {e : Engine (Prog ω)} (ha : FileApp rx o io fs opt name e) (h200 : o.bad 200 = false)
    (h304 : o.bad 304 = false) {v : CacheVisit ω} {i : FileInfo} {d : Str} (hv : VisitOf fs io opt name v i d)
    {k : Copy} (hk : Asks (some k) v.req) (hkt : k.etag = none) {s : Str} {st : Stamp} {n : Int} (hs : k.date = some s) (hst : ReadsImf s st)
    (hn : st.Unix n) :
    (received (answerAt rx o e v) = some 304 ↔ (i.modTime ≠ 0 ∧ i.modTime ≠ -62135596800000000000) ∧ second i.modTime ≤ n) ∧
    (received (answerAt rx o e v) ≠ some 304 → received (answerAt rx o e v) = some 200 ∧ receivedBody (answerAt rx o e v) = d) := by
  have hp := asks_plainly hk
  have hnone : v.req.header.get b!"If-None-Match" = [] := by rw [hk.tag]; simp [hkt]
  have hdate : v.req.header.get b!"If-Modified-Since" = s := by rw [hk.date]; simp [hs]
  have hread : io.parseTime s = some (n * 1000000000 + st.ns) := by
    rw [hio.2]
    unfold parseHttp
    rw [(parseImf_iff s (n * 1000000000 + st.ns)).2 ⟨st, n, hst, hn, rfl⟩]
  have hne : s ≠ [] := by
    cases hst
    simp
  have hns : st.ns < 1000000000 := by
    cases hst with
    | mk _ _ _ _ _ hf => exact fraction_lt hf
  have hcond : ∀ et, checkPreconditions io.parseTime (condReq v.req) et i.modTime =
      if (i.modTime ≠ 0 ∧ i.modTime ≠ -62135596800000000000) ∧ second i.modTime ≤ n then .notModified else .go [] := by
    intro et
    rw [conditions_untagged hp hnone, hdate]
    have hz : isZeroTime i.modTime = false ↔ i.modTime ≠ 0 ∧ i.modTime ≠ -62135596800000000000 := by
      unfold isZeroTime
      simp only [Bool.or_eq_false_iff, beq_eq_false_iff_ne]
      exact And.comm
    have hle : second i.modTime * 1000000000 ≤ n * 1000000000 + st.ns ↔ second i.modTime ≤ n := by omega
    have : (s ≠ [] ∧ isZeroTime i.modTime = false ∧ ∃ t, io.parseTime s = some t ∧ second i.modTime * 1000000000 ≤ t) ↔
        ((i.modTime ≠ 0 ∧ i.modTime ≠ -62135596800000000000) ∧ second i.modTime ≤ n) := by
      rw [hz, hread]
      constructor
      · rintro ⟨_, h1, t, h2, h3⟩
        cases h2
        exact ⟨h1, hle.1 h3⟩
      · rintro ⟨h1, h2⟩
        exact ⟨hne, h1, _, rfl, hle.2 h2⟩
    by_cases hc : (i.modTime ≠ 0 ∧ i.modTime ≠ -62135596800000000000) ∧ second i.modTime ≤ n
    · rw [if_pos hc, if_pos (this.2 hc)]
    · rw [if_neg hc, if_neg (fun h => hc (this.1 h))]
  obtain ⟨w, hans⟩ := app_answer ha h200 h304 hv hp (Or.inl hnone)
  generalize hL : answerAt rx o e v = L at hans ⊢
  cases hans with
  | tag h1 h2 => rw [hnone] at h2; exact absurd h2.symm (staticTag_ne_nil _ _)
  | old h1 h2 =>
    rw [hcond] at h2
    split at h2
    · rename_i hc
      exact ⟨⟨fun _ => hc, fun _ => rfl⟩, fun h => absurd rfl h⟩
    · cases h2
  | file h1 h2 =>
    rw [hcond] at h2
    split at h2
    · cases h2
    · rename_i hc
      obtain ⟨r1, r2, r3⟩ := received_sent 200 (wholeHeader io o name i.modTime d (taggedHeader opt i (startHeader opt w))) d
      refine ⟨⟨fun h => ?_, fun h => absurd h hc⟩, fun _ => ⟨r1, r3⟩⟩
      rw [r1] at h; cases h

/-- C129: caches with dates (C125) with net/http as it is: nothing is assumed of dates but that the years have four digits. -/
theorem C129_cache_partial {rx : Regex} {o : Oracle} {io : ContentIO ω} {obsolete : Str → Option Int} (hio : StdDates io obsolete) {fs : FS ω}
    {opt : StaticOptions ω} {name : Str} {e : Engine (Prog ω)} (ha : FileApp rx o io fs opt name e) (h200 : o.bad 200 = false) (h304 : o.bad 304 = false)
    {strict : Bool} (hst : Tagless strict opt) {info : CacheVisit ω → FileInfo} {data : CacheVisit ω → Str} {vs : List (CacheVisit ω)} {v : CacheVisit ω}
    (hv : ∀ u ∈ vs ++ [v], VisitOf fs io opt name u (info u) (data u)) (hd : ∀ u ∈ vs ++ [v], FourDigits (info u).modTime)
    (hsame : ∀ u ∈ vs ++ [v], ∀ v' ∈ vs ++ [v], second (info u).modTime = second (info v').modTime → data u = data v')
    (hup : (vs ++ [v]).Pairwise (fun u v => second (info u).modTime ≤ second (info v).modTime))
    {k : Option Copy} (hk : Cached strict (answerAt rx o e) vs k) (hask : Asks k v.req) :
    (∃ k', refresh strict k (answerAt rx o e v) = some k' ∧ k'.body = data v) ∧
    (received (answerAt rx o e v) = some 304 ↔ k.bind (·.date) ≠ none ∧ isZeroTime (info v).modTime = false ∧
      ∃ u, vs.getLast? = some u ∧ second (info u).modTime = second (info v).modTime) ∧
    (received (answerAt rx o e v) ≠ some 304 → received (answerAt rx o e v) = some 200 ∧ receivedBody (answerAt rx o e v) = data v) :=
  C125_dates_partial ha h200 h304 hst hv (fun u hu => (std_plain hio (hd u hu)).1) hsame hup hk hask

/-- C129: downloads that are taken up (C126) with net/http as it is. -/
theorem C129_resume_partial {rx : Regex} {o : Oracle} {io : ContentIO ω} {obsolete : Str → Option Int} (hio : StdDates io obsolete) {fs : FS ω}
    {opt : StaticOptions ω} {name : Str} {e : Engine (Prog ω)} (ha : FileApp rx o io fs opt name e) (h200 : o.bad 200 = false) (h206 : o.bad 206 = false)
    (h304 : o.bad 304 = false) (h416 : o.bad 416 = false) {strict : Bool} (hst : Tagless strict opt) {info : CacheVisit ω → FileInfo}
    {data : CacheVisit ω → Str} {vs : List (CacheVisit ω)} {v : CacheVisit ω} (hv : ∀ u ∈ vs ++ [v], VisitOf fs io opt name u (info u) (data u))
    (hd : ∀ u ∈ vs ++ [v], FourDigits (info u).modTime) (hsz : ∀ u ∈ vs ++ [v], (data u).length < 2 ^ 63)
    (hsame : ∀ u ∈ vs ++ [v], ∀ v' ∈ vs ++ [v], second (info u).modTime = second (info v').modTime → data u = data v')
    {p : Option Part} (hf : Fetched strict (answerAt rx o e) vs p) (hr : Resumes p v.req) (cut : Nat) :
    TakenUp strict p (answerAt rx o e v) cut (data v) (∃ u, vs.getLast? = some u ∧ second (info u).modTime = second (info v).modTime ∧
      (info v).modTime ≠ -62135596800000000000) :=
  C126_dates_partial ha h200 h206 h304 h416 hst hv (fun u hu => std_plain hio (hd u hu)) hsz hsame hf hr cut

/-! ### Examples and refutations -/

namespace Demo

/-- the dates of net/http, without the obsolete formats -/
def stdIO : ContentIO (FileInfo × Str) := { oneIO with formatTime := formatHttp, parseTime := parseHttp (fun _ => none) }

theorem stdIO_dates : StdDates stdIO (fun _ => none) := ⟨rfl, rfl⟩

/-- the rest of net/http is not used -/
def stdHttp : Http (FileInfo × Str) := { oneHttp with serveContent := serveContentStd stdIO chainO }

/-- build the application and test it -/
def withStd (etag : ETagType) (p : Engine (Prog (FileInfo × Str)) → Bool) : Bool :=
  match runOps [] (.newRouter :: staticOps 0 oneFS stdHttp (oneOpt etag)) with
  | .error _ => false
  | .ok heap =>
    match handler rx heap 0 [] with
    | .error _ => false
    | .ok e => p e

theorem withStd_spec {etag : ETagType} {p : Engine (Prog (FileInfo × Str)) → Bool} (h : withStd etag p = true) :
    ∃ e, FileApp rx chainO stdIO oneFS (oneOpt etag) b!"f.txt" e ∧ p e = true := by
  unfold withStd at h
  cases h1 : runOps [] (.newRouter :: staticOps 0 oneFS stdHttp (oneOpt etag)) with
  | error _ => rw [h1] at h; cases h
  | ok heap =>
    rw [h1] at h
    dsimp only at h
    cases h2 : handler rx heap 0 [] with
    | error _ => rw [h2] at h; cases h
    | ok e =>
      rw [h2] at h
      exact ⟨e, alone_app (by decide) (by decide) (oneOrdinary etag) rfl h1 h2, h⟩

theorem visitStd_of (etag : ETagType) (k : Option Copy) (i : FileInfo) (d : Str) (hd : i.dir = false) :
    VisitOf oneFS stdIO (oneOpt etag) b!"f.txt" (visitOne k (i, d)) i d where
  routed := ⟨Or.inr ⟨rfl, Int.le_refl 1⟩, show b!"/static/f.txt" ≠ b!"*" by decide, List.mem_cons_self⟩
  path := show b!"/static/f.txt" = pathBelow (elems b!"/static") b!"f.txt" by decide +kernel
  file := ⟨_, _, _, rfl, rfl, hd, rfl⟩

/-- a leap day, the last of a century that has one -/
example : formatHttp 951868799999999999 = b!"Tue, 29 Feb 2000 23:59:59 GMT" ∧ FourDigits 951868799999999999 := by
  unfold FourDigits
  decide +kernel

/-- the last moment -/
example : formatHttp 253402300799000000000 = b!"Fri, 31 Dec 9999 23:59:59 GMT" ∧ FourDigits 253402300799000000000 := by
  unfold FourDigits
  decide +kernel

/-- the hypotheses of `C129_served_partial` are met; `newInfo` is of 2020 -/
example : ∃ e, FileApp rx chainO stdIO oneFS (oneOpt 0) b!"f.txt" e ∧ FourDigits newInfo.modTime ∧
    received (answerAt rx chainO e (visitOne none (newInfo, b!"new"))) = some 200 ∧
    (receivedHeader (answerAt rx chainO e (visitOne none (newInfo, b!"new")))).bind dateOf = some b!"Sun, 13 Sep 2020 12:26:40 GMT" := by
  obtain ⟨e, h1, h2⟩ := withStd_spec (etag := 0) (p := fun e =>
    (receivedHeader (answerAt rx chainO e (visitOne none (newInfo, b!"new")))).bind dateOf == some b!"Sun, 13 Sep 2020 12:26:40 GMT") (by decide +kernel)
  have hf : FourDigits newInfo.modTime := by unfold FourDigits; decide +kernel
  exact ⟨e, h1, hf, (C129_served_partial stdIO_dates h1 rfl rfl (visitStd_of 0 none newInfo b!"new" rfl) (visitOne_asks _ _) hf).1, by simpa using h2⟩

/-- the day is not looked at, nor are capitals, and there may be more spaces, fewer digits, and half a second -/
theorem odd_reads : ReadsImf b!"mOn,  13 SEP 2020   1:26:40.5 GMT" ⟨⟨2020, 9, 13⟩, 1, 26, 40, 500000000, 0⟩ := by
  have num : Numeral b!"5" := ⟨by decide, by decide⟩
  have := ReadsImf.mk (t := ⟨⟨2020, 9, 13⟩, 1, 26, 40, 500000000, 0⟩) (dn := b!"Mon") (mn := b!"Sep") (dn' := b!"mOn") (mn' := b!"SEP") (s1 := b!"  ") (s2 := b!" ")
    (s3 := b!" ") (s4 := b!"   ") (s5 := b!" ") (hh := b!"1") (fr := b!".5") (by decide) ⟨by decide, by decide, by decide, by decide⟩
    (.one (n := 1) (by decide)) (by decide) (by decide) (.inl (.some num (by decide))) rfl (by decide)
    ((matchFold_iff _ _).1 (by decide +kernel)) (by decide +kernel) ((matchFold_iff _ _).1 (by decide +kernel))
    (.more .one) .one .one (.more (.more .one)) .one
  exact this

/-- the hypotheses of `C129_since_partial` are met -/
example : ∃ e, FileApp rx chainO stdIO oneFS (oneOpt 0) b!"f.txt" e ∧ ∃ n, Stamp.Unix ⟨⟨2020, 9, 13⟩, 1, 26, 40, 500000000, 0⟩ n ∧
    (received (answerAt rx chainO e (visitOne (some ⟨b!"x", none, some b!"mOn,  13 SEP 2020   1:26:40.5 GMT"⟩) (oldInfo, b!"old data"))) = some 304) := by
  obtain ⟨e, h1, h2⟩ := withStd_spec (etag := 0) (p := fun e =>
    received (answerAt rx chainO e (visitOne (some ⟨b!"x", none, some b!"mOn,  13 SEP 2020   1:26:40.5 GMT"⟩) (oldInfo, b!"old data"))) == some 304) (by decide +kernel)
  have hv : Date.Valid ⟨2020, 9, 13⟩ := ⟨by decide, by decide, by decide, by decide⟩
  have hu := (unixDate_iff (t := ⟨⟨2020, 9, 13⟩, 1, 26, 40, 500000000, 0⟩) hv _).2 rfl
  have := (C129_since_partial stdIO_dates h1 rfl rfl (visitStd_of 0 (some ⟨b!"x", none, some b!"mOn,  13 SEP 2020   1:26:40.5 GMT"⟩) oldInfo b!"old data" rfl)
    (visitOne_asks _ _) rfl rfl odd_reads hu).1
  exact ⟨e, h1, _, hu, this.2 ⟨by decide, by decide +kernel⟩⟩

end Demo

open Demo in
/-- **C129 refuted for 1970.** A file of the first moment of 1970, as many tools make them, is sent without a date, and is sent again to a client that
has it. -/
theorem C129_refuted : FourDigits 0 ∧ ∃ e, FileApp rx chainO stdIO oneFS (oneOpt 0) b!"f.txt" e ∧
    (receivedHeader (answerAt rx chainO e (visitOne none (⟨false, 0, 3, b!"f.txt"⟩, b!"old")))).map dateOf = some none ∧
    received (answerAt rx chainO e (visitOne (some ⟨b!"old", none, some b!"Thu, 01 Jan 1970 00:00:00 GMT"⟩) (⟨false, 0, 3, b!"f.txt"⟩, b!"old"))) = some 200 ∧
    ImfDate b!"Thu, 01 Jan 1970 00:00:00 GMT" ⟨⟨1970, 1, 1⟩, 0, 0, 0, 0, 0⟩ ∧ Stamp.Unix ⟨⟨1970, 1, 1⟩, 0, 0, 0, 0, 0⟩ 0 := by
  obtain ⟨e, h1, h2⟩ := withStd_spec (etag := 0) (p := fun e =>
    (receivedHeader (answerAt rx chainO e (visitOne none (⟨false, 0, 3, b!"f.txt"⟩, b!"old")))).map dateOf == some none &&
    received (answerAt rx chainO e (visitOne (some ⟨b!"old", none, some b!"Thu, 01 Jan 1970 00:00:00 GMT"⟩) (⟨false, 0, 3, b!"f.txt"⟩, b!"old"))) == some 200)
    (by decide +kernel)
  simp only [Bool.and_eq_true, beq_iff_eq] at h2
  have hv : Date.Valid ⟨1970, 1, 1⟩ := ⟨by decide, by decide, by decide, by decide⟩
  have hu : Stamp.Unix ⟨⟨1970, 1, 1⟩, 0, 0, 0, 0, 0⟩ 0 := (unixDate_iff hv _).2 (by decide +kernel)
  have hf : formatHttp 0 = b!"Thu, 01 Jan 1970 00:00:00 GMT" := by decide +kernel
  refine ⟨by unfold FourDigits; decide +kernel, e, h1, h2.1, h2.2, ?_, hu⟩
  rw [← hf]
  exact format_stamp (by decide) hv (by decide) (by decide) (by decide) rfl rfl hu

/-- **C129 refuted for later years.** A time after the year 9999 is written as a text that is no date, and is not read back. -/
theorem C129_refuted_years : formatHttp 253402300800000000000 = b!"Sat, 01 Jan 10000 00:00:00 GMT" ∧
    parseImf b!"Sat, 01 Jan 10000 00:00:00 GMT" = none ∧ ∀ st, ¬ ImfDate b!"Sat, 01 Jan 10000 00:00:00 GMT" st := by
  have h : parseImf b!"Sat, 01 Jan 10000 00:00:00 GMT" = none := by decide +kernel
  refine ⟨by decide +kernel, h, fun st hst => ?_⟩
  have hv := imf_valid hst
  have := C129_read hst ((unixDate_iff hv _).2 rfl) (fun _ => none)
  unfold parseHttp at this
  rw [h] at this
  cases this

/-- **C129 refuted for other texts.** A text with the wrong day of the week, which is the date of no second, is read. -/
theorem C129_refuted_day : (∀ st, ¬ ImfDate b!"Mon, 13 Sep 2020 12:26:40 GMT" st) ∧
    parseImf b!"Mon, 13 Sep 2020 12:26:40 GMT" = some 1600000000000000000 ∧ parseImf b!"Sun, 13 Sep 2020 12:26:40 GMT" = some 1600000000000000000 := by
  have h : parseImf b!"Mon, 13 Sep 2020 12:26:40 GMT" = some 1600000000000000000 := by decide +kernel
  refine ⟨fun st hst => ?_, h, by decide +kernel⟩
  have hv := imf_valid hst
  have hu := (unixDate_iff hv _).2 rfl
  have h1 := C129_read hst hu (fun _ => none)
  unfold parseHttp at h1
  rw [h] at h1
  have h2 := Option.some.inj h1
  generalize unixDate st.date.y st.date.m st.date.d st.h st.min st.sec - st.offset = u at hu h2
  have h3 : u = second 1600000000000000000 := by unfold second; omega
  rw [h3] at hu
  have h4 := C129_only hst hu
  have h5 : formatHttp 1600000000000000000 = b!"Sun, 13 Sep 2020 12:26:40 GMT" := by decide +kernel
  rw [h5] at h4
  exact absurd h4 (by decide)

end Water
