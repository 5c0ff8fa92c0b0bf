import Verif.Lemmas.IPv4
import Verif.Props.Jar
/- C54 and C123 with `net.ParseIP` as it is (Go 1.15), instead of a parameter: nothing is assumed about addresses any more. -/
namespace Water
open Spec Demo

/-- **C54 (the domain).** The domains that `net/http` writes into a cookie are the domain names of at most 255 bytes, perhaps with a dot
before, and the IPv4 addresses: four numbers up to 255, also with zeros before them. -/
theorem C54_domain (d : Str) : cookieDomainValid parseIPv4 d = true ↔ DomainName d ∨ IPv4Text d := by
  unfold cookieDomainValid
  rw [Bool.or_eq_true, parseIPv4_iff]
  refine or_congr_left ?_
  exact domainName_iff d

private theorem ok_ip {ok : Str → Bool} (hok : ∀ d, ok d = true ↔ DomainName d ∨ IPv4Text d) :
    ∀ d, ok d = true ↔ DomainName d ∨ parseIPv4 d = true := fun d => by rw [hok, parseIPv4_iff]

/-- **C54 (partial)**, as `C54_line_partial` and with nothing assumed about addresses. -/
theorem C54_line_ip_partial {ok : Str → Bool} (hok : ∀ d, ok d = true ↔ DomainName d ∨ IPv4Text d) (h : Header) {name value : Str}
    {others : List CArg} (hn : Token name) (hv : ∀ c ∈ value, ValueByte c) (hp : ∀ c ∈ pathArg others, PathByte c) :
    ∃ line, setCookie parseIPv4 h name value others b!"Set-Cookie" = some ((h b!"Set-Cookie").getD [] ++ [line]) ∧
      (∀ k, k ≠ b!"Set-Cookie" → setCookie parseIPv4 h name value others k = h k) ∧
      splitB 59 line = (name ++ [61] ++ wire value) :: attributes ok others :=
  C54_line_partial (fun _ => ip_no_semi) (ok_ip hok) h hn hv hp

/-- **C54**, as `C54_sanitised` and with nothing assumed about addresses. -/
theorem C54_sanitised_ip {ok : Str → Bool} (hok : ∀ d, ok d = true ↔ DomainName d ∨ IPv4Text d) (h : Header) {name : Str} (value : Str)
    (others : List CArg) (hn : Token name) :
    ∃ line v p, setCookie parseIPv4 h name value others b!"Set-Cookie" = some ((h b!"Set-Cookie").getD [] ++ [line]) ∧
      v.Sublist value ∧ (∀ c ∈ v, ValueByte c) ∧ v.length = value.countP (fun c => cookieValueByte c) ∧
      p.Sublist (pathArg others) ∧ (∀ c ∈ p, PathByte c) ∧
      splitB 59 line = (name ++ [61] ++ wire v) :: (b!" Path=" ++ p) :: (attributes ok others).drop 1 :=
  C54_sanitised (fun _ => ip_no_semi) (ok_ip hok) h value others hn

/-- **C123 (kept)**, with nothing assumed about addresses: `addr` says which hosts the browser takes for addresses. -/
theorem C123_kept_ip {ok addr : Str → Bool} (hok : ∀ d, ok d = true ↔ DomainName d ∨ IPv4Text d) (h0 : Header)
    (hn : h0 b!"Set-Cookie" = none) (vs : List CookieVisit) (hf : ∀ v ∈ vs, ∀ c ∈ v.calls, c.Fine) :
    keepAll addr (fun v => setCookies parseIPv4 v.calls h0) vs = (obeyAll addr ok vs).map Kept.onWire :=
  C123_kept (fun _ => ip_dotted) (ok_ip hok) h0 hn vs hf

/-- **C123 (read)**, with nothing assumed about addresses. -/
theorem C123_read_ip {ok addr : Str → Bool} (hok : ∀ d, ok d = true ↔ DomainName d ∨ IPv4Text d) {h0 : Header}
    (hn : h0 b!"Set-Cookie" = none) {vs : List CookieVisit} (hf : ∀ v ∈ vs, ∀ c ∈ v.calls, c.Fine) (now : Int) (q : Spot) :
    (∃ l, SentCookies addr now q (keepAll addr (fun v => setCookies parseIPv4 v.calls h0) vs) l) ∧
    ∀ l h, SentCookies addr now q (keepAll addr (fun v => setCookies parseIPv4 v.calls h0) vs) l → CookieHeader l h → ∀ n : Str, n ≠ [] →
      (∀ c, Foremost addr now q (obeyAll addr ok vs) c → c.name = n → cookieOf h n = c.value) ∧
      ((∀ c ∈ obeyAll addr ok vs, c.name = n → ¬ Goes addr now q c) → cookieOf h n = []) ∧
      ((∃ c, c.name = n ∧ Foremost addr now q (obeyAll addr ok vs) c) ∨ ∀ c ∈ obeyAll addr ok vs, c.name = n → ¬ Goes addr now q c) :=
  C123_read (fun _ => ip_dotted) (ok_ip hok) hn hf now q

/-- **C123 (last)**, with nothing assumed about addresses. -/
theorem C123_last_ip {addr : Str → Bool} {h0 : Header} (hn : h0 b!"Set-Cookie" = none)
    {vs : List CookieVisit} (hf : ∀ v ∈ vs, ∀ c ∈ v.calls, c.Fine) {host : Str} (hh : ∀ v ∈ vs, v.place.host = host)
    (hp : ∀ v ∈ vs, ∀ c ∈ v.calls, c.others.length ≤ 1) {now : Int} {q : Spot} (hq : q.host = host) (hs : q.path.head? = some 47)
    {l : List Kept} {h : Header} (hl : SentCookies addr now q (keepAll addr (fun v => setCookies parseIPv4 v.calls h0) vs) l)
    (hc : CookieHeader l h) {n : Str} (hne : n ≠ []) :
    cookieOf h n = match lastCall vs n with
      | some (t, c) => if ageArg c.others = 0 ∨ (0 < ageArg c.others ∧ now < t + ageArg c.others) then c.value else []
      | none => [] :=
  C123_last (ok := cookieDomainValid parseIPv4) (fun _ => ip_dotted) (ok_ip C54_domain) hn hf hh hp hq hs hl hc hne

/-- **C123 (escaped)**, with nothing assumed about addresses. -/
theorem C123_escaped_ip {addr : Str → Bool} {h0 : Header} (hn : h0 b!"Set-Cookie" = none)
    {vs : List CookieVisit} (hne : ∀ v ∈ vs, ∀ c ∈ v.calls, c.name ≠ []) {host : Str} (hh : ∀ v ∈ vs, v.place.host = host)
    (hp : ∀ v ∈ vs, ∀ c ∈ v.calls, c.others.length ≤ 1) {now : Int} {q : Spot} (hq : q.host = host) (hs : q.path.head? = some 47)
    {l : List Kept} {h : Header}
    (hl : SentCookies addr now q (keepAll addr (fun v => setCookies parseIPv4 (v.calls.map escapeCall) h0) vs) l)
    (hc : CookieHeader l h) {n : Str} (hnn : n ≠ []) :
    queryUnescape (cookieOf h (queryEscape n)) = some (match lastCall vs n with
      | some (t, c) => if ageArg c.others = 0 ∨ (0 < ageArg c.others ∧ now < t + ageArg c.others) then c.value else []
      | none => []) :=
  C123_escaped (ok := cookieDomainValid parseIPv4) (fun _ => ip_dotted) (ok_ip C54_domain) hn hne hh hp hq hs hl hc hnn

/-- addresses and texts that are none -/
example : parseIPv4 b!"127.0.0.1" = true ∧ parseIPv4 b!"010.0.00.255" = true ∧ parseIPv4 b!"1.2.3" = false ∧ parseIPv4 b!"1.2.3.256" = false ∧
    parseIPv4 b!"1.2.3.4." = false ∧ parseIPv4 b!"1..3.4" = false ∧ parseIPv4 b!".1.2.3" = false ∧ parseIPv4 b!"99999999999999999999.1.1.1" = false := by
  decide +kernel

/-- a cookie for an address, and one for a text that is neither an address nor a name -/
example : setCookie parseIPv4 Map.empty b!"a" b!"1" [.int 0, .nil, .string b!"127.0.0.1"] b!"Set-Cookie" =
      some [b!"a=1; Path=/; Domain=127.0.0.1"] ∧
    setCookie parseIPv4 Map.empty b!"a" b!"1" [.int 0, .nil, .string b!"127.0.0.256"] b!"Set-Cookie" = some [b!"a=1; Path=/"] := by
  decide +kernel

/-- with the address of the machine the browser keeps the cookie for that host -/
example : keepAll parseIPv4 (fun v => setCookies parseIPv4 v.calls Map.empty)
    [⟨100, ⟨b!"127.0.0.1", b!"/", true⟩, [⟨b!"id", b!"7", [.int 0, .nil, .string b!"127.0.0.1"]⟩]⟩] =
    [⟨b!"id", b!"7", b!"127.0.0.1", false, b!"/", false, none⟩] := by decide +kernel

end Water
