import Verif.Lemmas.Address
import Verif.Props.RedirectWeb
/- Property C133: a redirect leaves the site only if the address says so. -/
namespace Water
open Spec Demo
variable {ω : Type}

private theorem hexEsc_cons (c : UInt8) (s : Str) : hexEscapeNonASCII (c :: s) =
    (if c ≥ 0x80 then [37, hexDigit (c.toNat / 16), hexDigit (c.toNat % 16)] else [c]) ++ hexEscapeNonASCII s := rfl

private theorem high_digits : ∀ c : UInt8, (hexDigit (c.toNat / 16) != 9 && hexDigit (c.toNat / 16) != 10 && hexDigit (c.toNat / 16) != 13) = true ∧
    (hexDigit (c.toNat % 16) != 9 && hexDigit (c.toNat % 16) != 10 && hexDigit (c.toNat % 16) != 13) = true ∧
    hexDigit (c.toNat / 16) ≠ 92 ∧ hexDigit (c.toNat % 16) ≠ 92 := by
  apply all_bytes
  decide +kernel

private theorem high_plain : ∀ c : UInt8, c ≥ 0x80 → ¬ c ≤ 32 ∧ (c != 9 && c != 10 && c != 13) = true ∧ c ≠ 92 := by
  apply all_bytes
  decide +kernel

/-- browsers read the escaped text as they read the text -/
theorem webReads_hexEscape (s : Str) : webReads (hexEscapeNonASCII s) = hexEscapeNonASCII (webReads s) := by
  induction s with
  | nil => rfl
  | cons c s ih =>
    rw [hexEsc_cons]
    by_cases h : c ≥ 0x80
    · obtain ⟨-, h2, h3⟩ := high_plain c h
      obtain ⟨d1, d2, d3, d4⟩ := high_digits c
      have e : webReads (c :: s) = c :: webReads s := by
        unfold webReads
        rw [List.filter_cons, if_pos h2, List.map_cons, if_neg h3]
      rw [if_pos h, e, hexEsc_cons, if_pos h, ← ih]
      unfold webReads
      rw [List.filter_append, List.map_append]
      congr 1
      rw [List.filter_cons, if_pos (by decide), List.filter_cons, if_pos d1, List.filter_cons, if_pos d2]
      simp only [List.filter_nil, List.map_cons, List.map_nil]
      rw [if_neg (by decide), if_neg d3, if_neg d4]
    · rw [if_neg h]
      by_cases hd : (c != 9 && c != 10 && c != 13) = true
      · have e : ∀ t, webReads (c :: t) = (if c = 92 then slash else c) :: webReads t := by
          intro t
          unfold webReads
          rw [List.filter_cons, if_pos hd, List.map_cons]
        rw [List.cons_append, List.nil_append, e, e, hexEsc_cons, ih]
        by_cases hb : c = 92
        · rw [if_pos hb, if_neg (by decide)]; rfl
        · rw [if_neg hb, if_neg h]; rfl
      · have e : ∀ t, webReads (c :: t) = webReads t := by
          intro t
          unfold webReads
          rw [List.filter_cons, if_neg hd]
        rw [List.cons_append, List.nil_append, e, e, ih]

private theorem drop_hexEscape (s : Str) : (hexEscapeNonASCII s).dropWhile (· ≤ 32) = hexEscapeNonASCII (s.dropWhile (· ≤ 32)) := by
  induction s with
  | nil => rfl
  | cons c s ih =>
    by_cases h : c ≥ 0x80
    · rw [List.dropWhile_cons, if_neg (by simpa using (high_plain c h).1), hexEsc_cons, if_pos h]
      rfl
    · rw [hexEsc_cons, if_neg h, List.dropWhile_cons, List.cons_append, List.nil_append, List.dropWhile_cons]
      by_cases h32 : c ≤ 32
      · rw [if_pos (by simpa using h32), if_pos (by simpa using h32), ih]
      · rw [if_neg (by simpa using h32), if_neg (by simpa using h32), hexEsc_cons, if_neg h]
        rfl

private theorem hex_slashes (s : Str) : (∃ r, hexEscapeNonASCII s = 47 :: 47 :: r) ↔ ∃ r, s = 47 :: 47 :: r := by
  constructor
  · rintro ⟨r, e⟩
    cases s with
    | nil => cases e
    | cons c s =>
      rw [hexEsc_cons] at e
      by_cases h : c ≥ 0x80
      · rw [if_pos h] at e; simp at e
      · rw [if_neg h] at e
        simp only [List.cons_append, List.nil_append, List.cons.injEq] at e
        obtain ⟨rfl, e⟩ := e
        cases s with
        | nil => cases e
        | cons d s =>
          rw [hexEsc_cons] at e
          by_cases h : d ≥ 0x80
          · rw [if_pos h] at e; simp at e
          · rw [if_neg h] at e
            simp only [List.cons_append, List.nil_append, List.cons.injEq] at e
            exact ⟨s, by rw [e.1]⟩
  · rintro ⟨r, rfl⟩
    exact ⟨hexEscapeNonASCII r, rfl⟩

private theorem scheme_ascii : ∀ c : UInt8, (((65 ≤ c ∧ c ≤ 90) ∨ (97 ≤ c ∧ c ≤ 122)) ∨ (48 ≤ c ∧ c ≤ 57) ∨ c = 43 ∨ c = 45 ∨ c = 46) →
    ¬ c ≥ 0x80 ∧ c ≠ 37 ∧ c ≠ 9 ∧ c ≠ 10 ∧ c ≠ 13 ∧ c ≠ 92 ∧ c ≠ 35 ∧ c ≠ 42 ∧ ¬ c ≤ 32 := by
  apply all_bytes
  decide +kernel

private theorem hex_prefix {s r t : Str} (hs : ∀ c ∈ s, Letter c ∨ (48 ≤ c ∧ c ≤ 57) ∨ c = 43 ∨ c = 45 ∨ c = 46)
    (e : hexEscapeNonASCII t = s ++ 58 :: r) : ∃ r', t = s ++ 58 :: r' := by
  induction s generalizing t with
  | nil =>
    cases t with
    | nil => cases e
    | cons c t =>
      rw [hexEsc_cons] at e
      by_cases h : c ≥ 0x80
      · rw [if_pos h] at e; simp at e
      · rw [if_neg h] at e
        simp only [List.cons_append, List.nil_append, List.cons.injEq] at e
        exact ⟨t, by rw [e.1]; rfl⟩
  | cons x s ih =>
    cases t with
    | nil => cases e
    | cons c t =>
      rw [hexEsc_cons] at e
      by_cases h : c ≥ 0x80
      · rw [if_pos h] at e
        simp only [List.cons_append, List.nil_append, List.cons.injEq] at e
        exact absurd e.1.symm (scheme_ascii x (hs x (by simp))).2.1
      · rw [if_neg h] at e
        simp only [List.cons_append, List.nil_append, List.cons.injEq] at e
        obtain ⟨r', hr'⟩ := ih (fun c hc => hs c (by simp [hc])) e.2
        exact ⟨r', by rw [e.1, hr']; rfl⟩

private theorem hex_scheme {s : Str} (r : Str) (hs : ∀ c ∈ s, Letter c ∨ (48 ≤ c ∧ c ≤ 57) ∨ c = 43 ∨ c = 45 ∨ c = 46) :
    hexEscapeNonASCII (s ++ 58 :: r) = s ++ 58 :: hexEscapeNonASCII r := by
  induction s with
  | nil => rfl
  | cons c s ih =>
    rw [List.cons_append, hexEsc_cons, if_neg (scheme_ascii c (hs c (by simp))).1, ih (fun c hc => hs c (by simp [hc]))]
    rfl

/-- Escaping does not change whether an address leads elsewhere. -/
theorem elsewhere_hexEscape (s : Str) : Elsewhere (hexEscapeNonASCII s) ↔ Elsewhere s := by
  unfold Elsewhere webAddress
  rw [drop_hexEscape, webReads_hexEscape, hex_slashes]
  refine or_congr_left ?_
  generalize webReads (s.dropWhile (· ≤ 32)) = t
  constructor
  · rintro ⟨x, r, e, hx⟩
    obtain ⟨r', e'⟩ := hex_prefix hx.2 e
    exact ⟨x, r', e', hx⟩
  · rintro ⟨x, r, rfl, hx⟩
    exact ⟨x, hexEscapeNonASCII r, hex_scheme r hx.2, hx⟩

private theorem onHost_stays {loc : Str} (h0 : loc.head? = some slash) (h : OnHost (webReads loc)) : ¬ Elsewhere loc := by
  have e : webAddress loc = webReads loc := by
    unfold webAddress
    cases loc with
    | nil => cases h0
    | cons c l =>
      have : c = 47 := by simpa using h0
      subst this
      rw [List.dropWhile_cons, if_neg (by decide)]
  unfold Elsewhere
  rw [e]
  rintro (⟨s, r, hs, ⟨c, s', rfl, hl⟩, -⟩ | ⟨r, hr⟩)
  · have := h.1
    rw [hs] at this
    have : c = 47 := by simpa using this
    subst this
    revert hl; unfold Letter; decide
  · have := h.2
    rw [hr] at this
    exact this rfl

/-- **C133 (what is local).** `url.Parse`, as `http.Redirect` asks it, takes exactly the references without scheme and host for
local. -/
theorem C133_local (statusText : Int → Str) (a : Str) : (stdRedir statusText).isLocal a = true ↔ LocalRef a := local_iff a

/-- **C133 (as given).** An address that is not such a reference is the location, as it was given; bytes outside ASCII are escaped. -/
theorem C133_as_is (statusText : Int → Str) (path : Str) {a : Str} (h : ¬ LocalRef a) :
    redirectTarget (stdRedir statusText) path a = a := by
  unfold redirectTarget
  rw [if_neg (fun hh => h ((C133_local statusText a).1 hh))]

private theorem absolute_not_local {a : Str} (h : Absolute a) : ¬ LocalRef a := by
  rw [← local_iff]
  obtain ⟨s, r, rfl, hs⟩ := h
  unfold urlLocal
  have e : (s ++ 58 :: r).takeWhile (· != hashB) = s ++ 58 :: r.takeWhile (· != hashB) := by
    rw [List.takeWhile_append_of_pos (by
      intro c hc
      exact bne_iff_ne.2 (scheme_ascii c (hs.2 c hc)).2.2.2.2.2.2.1), List.takeWhile_cons, if_pos (by decide)]
  rw [e]
  have hg := (scheme_iff (s ++ 58 :: r.takeWhile (· != hashB))).2.2 ⟨s, _, rfl, hs⟩
  have hp : parseLocal (s ++ 58 :: r.takeWhile (· != hashB)) = false := by
    unfold parseLocal
    rw [hg]
    dsimp only
    rw [if_neg (show ¬ s ++ 58 :: r.takeWhile (· != hashB) = [star] by
      intro hh
      have : (58 : UInt8) ∈ [star] := by rw [← hh]; simp
      revert this; decide)]
    split <;> rfl
  rw [hp]
  simp

private theorem host_not_local {a : Str} (h : HostRef a) : ¬ LocalRef a := by
  rw [← local_iff]
  obtain ⟨auth, r, rfl, hauth, hr, hne, hlast⟩ := h
  have hmem : ∀ k : UInt8, k = 35 ∨ k = 63 ∨ k = 47 → ∀ c ∈ auth, (c != k) = true := by
    rintro k (rfl | rfl | rfl) c hc
    · exact bne_iff_ne.2 (hauth c hc).2.2
    · exact bne_iff_ne.2 (hauth c hc).2.1
    · exact bne_iff_ne.2 (hauth c hc).1
  have cut : ∀ (k : UInt8) (t : Str), (k = 35 ∨ k = 63) → (b!"//" ++ auth ++ t).takeWhile (· != k) = b!"//" ++ auth ++ t.takeWhile (· != k) := by
    intro k t hk
    rw [List.takeWhile_append_of_pos]
    intro c hc
    rcases List.mem_append.1 hc with hc | hc
    · have h47 : c = 47 := by simpa using hc
      rw [h47]
      rcases hk with rfl | rfl
      · decide
      · decide
    · exact hmem k (by rcases hk with h | h <;> simp [h]) c hc
  unfold urlLocal
  rw [cut hashB r (.inl rfl)]
  have hp : parseLocal (b!"//" ++ auth ++ r.takeWhile (· != hashB)) = false := by
    unfold parseLocal
    have hg : getscheme true (b!"//" ++ auth ++ r.takeWhile (· != hashB)) = .none := rfl
    rw [hg]
    dsimp only
    rw [cut quest _ (.inr rfl)]
    have hr' : ((r.takeWhile (· != hashB)).takeWhile (· != quest)) = [] ∨ ((r.takeWhile (· != hashB)).takeWhile (· != quest)).head? = some 47 := by
      cases r with
      | nil => exact .inl rfl
      | cons c r =>
        rcases hr with hr | hr | hr | hr
        · cases hr
        · have hc : c = 47 := by simpa using hr
          subst hc
          right; rfl
        · have hc : c = 63 := by simpa using hr
          subst hc
          left; rfl
        · have hc : c = 35 := by simpa using hr
          subst hc
          left; rfl
    revert hr'
    generalize (r.takeWhile (· != hashB)).takeWhile (· != quest) = t
    intro ht
    rw [if_neg (show ¬ b!"//" ++ auth ++ r.takeWhile (· != hashB) = [star] by intro hh; cases hh)]
    rw [if_neg (show ¬ ((b!"//" ++ auth ++ t).head? ≠ some slash ∧ _) from fun h => h.1 rfl)]
    have h3 : (hasPrefix (b!"//" ++ auth ++ t) b!"//" && !hasPrefix (b!"//" ++ auth ++ t) b!"///") = true := by
      rw [Bool.and_eq_true, Bool.not_eq_true', hasPrefix_iff, Bool.eq_false_iff, Ne, hasPrefix_iff]
      refine ⟨⟨auth ++ t, by simp⟩, ?_⟩
      rintro ⟨r', e⟩
      cases auth with
      | nil => exact hne rfl
      | cons c auth =>
        simp only [List.cons_append, List.nil_append, List.cons.injEq, true_and] at e
        exact (hauth c (by simp)).1 e.1
    rw [if_pos h3]
    have hd : (b!"//" ++ auth ++ t).drop 2 = auth ++ t := rfl
    rw [hd, (cut_first (k := slash) (fun c hc => (hauth c hc).1) ht).1]
    have hu : userOk auth = false := by
      rw [Bool.eq_false_iff, Ne, userOk_iff]
      rintro (hh | ⟨w, rfl, -⟩)
      · exact hne hh
      · exact hlast (by simp)
    rw [hu]
    split <;> rfl
  rw [hp]
  simp

/-- **C133 (there).** An address that names a scheme or a host is the location, as it was given, and a browser goes there: nothing is
cleaned or put before it. -/
theorem C133_there (statusText : Int → Str) (path : Str) {a : Str} (h : Absolute a ∨ HostRef a) :
    redirectTarget (stdRedir statusText) path a = a ∧ Elsewhere (hexEscapeNonASCII a) := by
  refine ⟨C133_as_is statusText path (h.elim absolute_not_local host_not_local), (elsewhere_hexEscape a).2 ?_⟩
  rcases h with ⟨s, r, rfl, hs⟩ | ⟨auth, r, rfl, -⟩
  · left
    obtain ⟨⟨c, s', rfl, hc⟩, hall⟩ := hs
    have e : webAddress (c :: s' ++ 58 :: r) = c :: s' ++ 58 :: webReads r := by
      unfold webAddress
      rw [List.cons_append, List.dropWhile_cons, if_neg (by simpa using (scheme_ascii c (.inl hc)).2.2.2.2.2.2.2.2), ← List.cons_append]
      revert hall
      generalize c :: s' = s
      intro hall
      induction s with
      | nil => rfl
      | cons x s ih =>
        obtain ⟨-, -, h1, h2, h3, h4, -⟩ := scheme_ascii x (hall x (by simp))
        have : webReads (x :: (s ++ 58 :: r)) = x :: webReads (s ++ 58 :: r) := by
          unfold webReads
          rw [List.filter_cons, if_pos (by simp [h1, h2, h3]), List.map_cons, if_neg h4]
        rw [List.cons_append, this, ih (fun c hc => hall c (by simp [hc]))]
        rfl
    exact ⟨c :: s', webReads r, e, ⟨⟨c, s', rfl, hc⟩, hall⟩⟩
  · right
    exact ⟨webReads (auth ++ r), rfl⟩

private theorem local_clear {a : Str} (h : LocalRef a) (hb : 92 ∉ a) (hf : ∀ c ∈ a.dropWhile (· != 35), ¬ WebByte c) :
    ∀ c ∈ a, ¬ WebByte c := by
  obtain ⟨front, path, query, frag, rfl, -, hfr, hm, hq, hctl, -⟩ := h
  have hrest : ∀ c ∈ front ++ path ++ query, c ≠ 35 := by
    intro c hc
    rcases List.mem_append.1 hc with hc | hc
    · exact (hm c hc).2
    · rintro rfl; exact hq hc
  rw [(cut_first (k := 35) hrest hfr).2] at hf
  intro c hc
  rcases List.mem_append.1 hc with h1 | h1
  · rintro (rfl | rfl | rfl | rfl)
    · exact hctl 9 h1 (.inl (by decide))
    · exact hctl 10 h1 (.inl (by decide))
    · exact hctl 13 h1 (.inl (by decide))
    · exact hb hc
  · exact hf c h1

/-- **C133 (partial).** A redirect sends a browser to another scheme or host only if the address does so itself, as a browser reads it;
the location is then the address as it was given. Missing: there must be no backslash in the address, no tab or line end in its
fragment, and for an address that does not begin with a slash none of these in the path of the request. With one of them a browser may
be sent elsewhere by an address that does not lead there (`C133_refuted`). -/
theorem C133_leaves_partial (statusText : Int → Str) {path a : Str} (hp : path = [] ∨ path.head? = some slash) (hb : 92 ∉ a)
    (hf : ∀ c ∈ a.dropWhile (· != 35), ¬ WebByte c) (hw : a.head? ≠ some slash → ∀ c ∈ path, ¬ WebByte c)
    (h : Elsewhere (hexEscapeNonASCII (redirectTarget (stdRedir statusText) path a))) :
    Elsewhere a ∧ ¬ LocalRef a ∧ redirectTarget (stdRedir statusText) path a = a := by
  by_cases hl : LocalRef a
  · have hi := (C133_local statusText a).2 hl
    have h1 := C85_onhost (stdRedir statusText) hi hp
    have h2 := C85_web_partial (stdRedir statusText) hi hp (local_clear hl hb hf) hw
    exact absurd h (onHost_stays h1.1 h2)
  · have e := C133_as_is statusText path hl
    rw [e] at h
    exact ⟨(elsewhere_hexEscape a).1 h, hl, e⟩

/-- **C133 (stays).** An address that is a reference without scheme and host, under the same conditions: the location begins with one
slash, also for a browser, and does not lead elsewhere. -/
theorem C133_stays_partial (statusText : Int → Str) {path a : Str} (hp : path = [] ∨ path.head? = some slash) (hl : LocalRef a) (hb : 92 ∉ a)
    (hf : ∀ c ∈ a.dropWhile (· != 35), ¬ WebByte c) (hw : a.head? ≠ some slash → ∀ c ∈ path, ¬ WebByte c) :
    OnHost (webReads (hexEscapeNonASCII (redirectTarget (stdRedir statusText) path a))) ∧
    ¬ Elsewhere (hexEscapeNonASCII (redirectTarget (stdRedir statusText) path a)) := by
  have hi := (C133_local statusText a).2 hl
  have h1 := C85_onhost (stdRedir statusText) hi hp
  have h2 := C85_web_partial (stdRedir statusText) hi hp (local_clear hl hb hf) hw
  exact ⟨h2, onHost_stays h1.1 h2⟩

/-- **C133 (sent, partial).** `Found` and `MovedPermanently` as a client hears them: one location, and it leads elsewhere only if the
address does. -/
theorem C133_sent_partial (o : Oracle) (req : Req) (nx : St ω → Out × St ω) (i : Nat) (statusText : Int → Str) (a : Str) (code : Int)
    (s : St ω) (hlog : s.rw.log = []) (hw : s.ctx.written = false) (hbad : o.bad code = false)
    (hp : req.path = [] ∨ req.path.head? = some slash) (hb : 92 ∉ a) (hf : ∀ c ∈ a.dropWhile (· != 35), ¬ WebByte c)
    (hrel : a.head? ≠ some slash → ∀ c ∈ req.path, ¬ WebByte c) :
    ∃ s' h body loc, exec o req nx i (httpRedirect (stdRedir statusText) false a code) s = (.ret, s') ∧
      s'.rw.log = .status true code h :: body ∧ h b!"Location" = some [loc] ∧
      (Elsewhere loc → Elsewhere a ∧ loc = hexEscapeNonASCII a) ∧ (LocalRef a → OnHost (webReads loc)) := by
  obtain ⟨s', h, h1, h2, h3, -⟩ := C85_sent o req nx i (stdRedir statusText) false a code s hlog (fun _ => hw) hbad
  refine ⟨s', h, _, _, h1, h2, h3, ?_, ?_⟩
  · intro he
    obtain ⟨e1, -, e3⟩ := C133_leaves_partial statusText hp hb hf hrel he
    exact ⟨e1, by rw [e3]⟩
  · intro hl
    exact (C133_stays_partial statusText hp hl hb hf hrel).1

namespace Demo

/-- the texts of the two statuses -/
def webText (c : Int) : Str := if c = 301 then b!"Moved Permanently" else b!"Found"

/-- what `Found` sends for an address, on a request for `/in/door` -/
def foundAt (a : Str) : Option (List Str) := locationOf (sentBy (found (stdRedir webText) a) b!"/in/door")

/-- the decision of `url.Parse`, on addresses of many kinds -/
theorem C133_demo :
    foundAt b!"/shop?q=//x" = some [b!"/shop?q=//x"] ∧ foundAt b!"../a/./b/" = some [b!"/a/b/"] ∧
    foundAt b!"///evil.example/" = some [b!"/evil.example/"] ∧ foundAt b!"//other.example/a/../b" = some [b!"//other.example/a/../b"] ∧
    foundAt b!"https://other.example/?a" = some [b!"https://other.example/?a"] ∧ foundAt b!"//me@/x" = some [b!"/me@/x"] ∧
    foundAt b!"" = some [b!"/in/"] ∧ foundAt b!"a:b" = some [b!"a:b"] ∧ foundAt b!"./a:b" = some [b!"/in/a:b"] ∧
    urlLocal b!"*" = true ∧ urlLocal b!":" = false ∧ urlLocal b!"1:2" = false ∧ urlLocal b!"?a:b" = true ∧ urlLocal b!"/%4" = false := by
  decide +kernel

/-- the hypotheses of `C133_stays_partial` are met -/
example : LocalRef b!"../a/./b/?c#d" ∧ 92 ∉ b!"../a/./b/?c#d" ∧ ∀ c ∈ b!"../a/./b/?c#d".dropWhile (· != 35), ¬ WebByte c :=
  ⟨(local_iff _).1 (by decide +kernel), by decide +kernel, by unfold WebByte; decide +kernel⟩

/-- and those of `C133_there` -/
example : Absolute b!"https://other.example/" ∧ HostRef b!"//other.example/" :=
  ⟨⟨b!"https", b!"//other.example/", rfl, ⟨_, _, rfl, by unfold Letter; decide⟩, by unfold Letter; decide +kernel⟩,
    ⟨b!"other.example", b!"/", rfl, by decide +kernel, .inr (.inl rfl), by decide, by decide⟩⟩

end Demo

private theorem stays_of {a : Str} (h : OnHost (webAddress a)) : ¬ Elsewhere a := by
  rintro (⟨s, r, hs, ⟨c, s', rfl, hl⟩, -⟩ | ⟨r, hr⟩)
  · have := h.1
    rw [hs] at this
    have : c = 47 := by simpa using this
    subst this
    revert hl; unfold Letter; decide
  · have := h.2
    rw [hr] at this
    exact this rfl

/-- **C133 refuted.** A browser takes `/./\evil.example` for a path, as it begins with one slash; it is a reference without scheme and
host, too. `Found` of it sends a browser to `evil.example`, because the location is cleaned: `/\evil.example`. The same with a tab in the
fragment, which is cleaned like a path. -/
theorem C133_refuted :
    (LocalRef b!"/./\\evil.example" ∧ ¬ Elsewhere b!"/./\\evil.example" ∧ foundAt b!"/./\\evil.example" = some [b!"/\\evil.example"] ∧
      Elsewhere b!"/\\evil.example") ∧
    (LocalRef b!"/a#/../\t/evil.example" ∧ ¬ Elsewhere b!"/a#/../\t/evil.example" ∧
      foundAt b!"/a#/../\t/evil.example" = some [b!"/\t/evil.example"] ∧ Elsewhere b!"/\t/evil.example") := by
  refine ⟨⟨(local_iff _).1 (by decide +kernel), stays_of (by unfold OnHost; decide +kernel), by decide +kernel, ?_⟩,
    ⟨(local_iff _).1 (by decide +kernel), stays_of (by unfold OnHost; decide +kernel), by decide +kernel, ?_⟩⟩
  · exact .inr ⟨b!"evil.example", by decide +kernel⟩
  · exact .inr ⟨b!"evil.example", by decide +kernel⟩

/-- **C133 refuted (three slashes).** An address with three slashes stays on the site, but with a stray percent sign it is sent as it is,
and a browser, for which three slashes are two, goes to `evil.example`. -/
theorem C133_refuted_percent :
    foundAt b!"///evil.example/" = some [b!"/evil.example/"] ∧ ¬ Elsewhere b!"/evil.example/" ∧
    foundAt b!"///evil.example/%" = some [b!"///evil.example/%"] ∧ Elsewhere b!"///evil.example/%" := by
  refine ⟨by decide +kernel, stays_of (by unfold OnHost; decide +kernel), by decide +kernel, .inr ⟨b!"/evil.example/%", by decide +kernel⟩⟩

/-- **C133 refuted (the fragment).** The fragment is cleaned with the path: `/docs#a//b` leads to `#a/b`, and `/docs#/..` loses the page. -/
theorem C133_refuted_fragment :
    foundAt b!"/docs#a//b" = some [b!"/docs#a/b"] ∧ foundAt b!"/docs#/.." = some [b!"/"] ∧
    LocalRef b!"/docs#a//b" ∧ LocalRef b!"/docs#/.." :=
  ⟨by decide +kernel, by decide +kernel, (local_iff _).1 (by decide +kernel), (local_iff _).1 (by decide +kernel)⟩

end Water
