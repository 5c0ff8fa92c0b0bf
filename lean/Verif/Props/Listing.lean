import Verif.Lemmas.Listing
import Verif.Props.ServeFile
/-
C137: the links in the listing of a directory.
-/
namespace Water
open Spec
variable {ω : Type}

/-- C137 as stated: the line of every entry shows its name and links to it. -/
def C137_claim : Prop :=
  ∀ (u : Str) (e : Str × Bool), DirAddress u → FileName e.1 → (0 : UInt8) ∉ e.1 → Links u (listLine (shownName e)) (shownName e)

/-- C137 (partial): the line of an entry shows its name and links to it, if there is no `&` in the name.
Missing: names with `&`, which is not escaped in the address, see `C137_refuted`. -/
theorem C137_link_partial {u : Str} (hu : DirAddress u) {e : Str × Bool} (hn : FileName e.1) (h0 : (0 : UInt8) ∉ e.1) (hamp : (38 : UInt8) ∉ e.1) :
    Links u (listLine (shownName e)) (shownName e) := by
  obtain ⟨n, d⟩ := e
  obtain ⟨a, hdec, hurl, hne, hslash, hmem, hdots⟩ := pathUrl_spec hn d
  have hq : ∀ c ∈ a, c ≠ 63 ∧ c ≠ 35 := by
    have key : ∀ c : UInt8, pathByte c = true → c ≠ 63 ∧ c ≠ 35 := by
      apply all_bytes
      decide +kernel
    exact fun c hc => key c (hmem c hc).1
  have hbytes : ∀ c ∈ pathUrl (shownName (n, d)), pathByte c = true ∧ c ≠ 38 := by
    have ha : ∀ c ∈ a, pathByte c = true ∧ c ≠ 38 := fun c hc => ⟨(hmem c hc).1, fun h => hamp ((hmem c hc).2 h)⟩
    rcases hurl with ⟨h, _⟩ | h
    · rw [h]; exact ha
    · rw [h]
      intro c hc
      rcases List.mem_append.1 hc with h | h
      · have : c = 46 ∨ c = 47 := by simpa using h
        rcases this with rfl | rfl <;> decide
      · exact ha c h
  have hmark : ∀ c ∈ pathUrl (shownName (n, d)), c ∉ markup := by
    have key : ∀ c : UInt8, pathByte c = true ∧ c ≠ 38 → c ∉ markup := by
      apply all_bytes
      decide +kernel
    exact fun c hc => key c (hbytes c hc)
  have h0' : (0 : UInt8) ∉ shownName (n, d) := by
    unfold shownName
    cases d
    · exact h0
    · intro h
      exact h0 ((List.mem_append.1 h).resolve_right (by decide))
  refine ⟨pathUrl (shownName (n, d)), htmlEscape (shownName (n, d)), rfl, fun h => hmark _ h (by decide), means_htmlEscape h0', ⟨_, attrReads_self hmark⟩, ?_⟩
  intro b hb
  have := attrReads_eq hb (fun h => (hbytes _ h).2 rfl)
  subst this
  refine ⟨?_, ?_⟩
  · unfold Elsewhere
    rw [webAddress_path (fun c hc => (hbytes c hc).1)]
    rcases hurl with ⟨h, hcol⟩ | h
    · rw [h]
      rintro (⟨s, r, h1, _⟩ | ⟨r, h1⟩)
      · exact hcol (by rw [h1]; simp)
      · rw [h1] at hslash; exact hslash rfl
    · rw [h]
      rintro (⟨s, r, h1, ⟨c, t, h2, h3⟩, _⟩ | ⟨r, h1⟩)
      · rw [h2] at h1
        have h1 : (46 : UInt8) :: 47 :: a = c :: (t ++ 58 :: r) := h1
        injection h1 with h4 _
        subst h4
        exact absurd h3 (by unfold Letter; decide)
      · have h1 : (46 : UInt8) :: 47 :: a = 47 :: 47 :: r := h1
        injection h1 with h4 _
        exact absurd h4 (by decide)
  · have hgoal : follow u (pathUrl (shownName (n, d))) = u ++ a := by
      rcases hurl with ⟨h, _⟩ | h
      · rw [h, follow_plain hu hne hslash hq hdots]
      · rw [h, follow_here hu hq hdots]
    rw [hgoal, pctDecode_dir hu.closed, hdec]

section
variable {rx : Regex} {o : Oracle} {io : ContentIO ω} {disk : OsFiles ω} {pattern file path : Str} {e : Engine (Prog ω)}

/-- C137 (partial): who asks for a directory without `index.html` gets a page with one line for each entry, which shows its name and links
to it. Missing: names with `&`. -/
theorem C137_page_partial (ha : SingleApp rx o io disk pattern file path e) {req : Req} (hg : PlainGet req) (hr : Routed req) (hp : req.path = path)
    (c : Ctx ω) (body : Option Str) {w w1 w2 w3 w4 : ω} (hd : ¬ HasDotDot path) (hi : ¬ NamesIndex path)
    {dir last : Str} (hs : slash ∉ last) (hdir : dir = [] ∨ dir.getLast? = some slash) (hl : last ≠ b!"..") (hf : file = dir ++ last)
    {f : Nat} {i : FileInfo} (hopen : disk.fs.openFile (pathClean file) w = (w1, some f)) (hstat : disk.fs.stat f w1 = (w2, some i)) (hid : i.dir = true)
    (hfile : file ≠ []) (hlast : path.getLast? = some slash) (hindex : disk.fs.openFile (pathClean (file ++ b!"/index.html")) w2 = (w3, none))
    {l : List (Str × Bool)} (hread : disk.entries f w3 = (w4, some l))
    (hnames : ∀ n ∈ l, FileName n.1 ∧ (0 : UInt8) ∉ n.1 ∧ (38 : UInt8) ∉ n.1) {u : Str} (hu : DirAddress u) :
    let sv := serve rx o e c req Writer.new body w
    received sv.rw.log = some 200 ∧
      (∃ h, receivedHeader sv.rw.log = some h ∧ fieldOf h b!"Content-Type" = some b!"text/html; charset=utf-8") ∧
      ∃ lines : List Str, receivedBody sv.rw.log = b!"<pre>\n" ++ lines.flatten ++ b!"</pre>\n" ∧ lines.length = l.length ∧
        ∀ (k : Nat) (line : Str) (n : Str × Bool), lines[k]? = some line → l[k]? = some n → Links u line (shownName n) := by
  obtain ⟨_, h1, _, h2, h3⟩ := C134_listing ha hg hr hp c body hd hi hs hdir hl hf hopen hstat hid hfile hlast hindex hread
  refine ⟨h1, h3, (l.map shownName).map listLine, h2, by simp, ?_⟩
  intro k line n hk hn
  rw [List.getElem?_map, List.getElem?_map, hn] at hk
  have hk : listLine (shownName n) = line := Option.some.inj hk
  rw [← hk]
  obtain ⟨x1, x2, x3⟩ := hnames n (List.mem_of_getElem? hn)
  exact C137_link_partial hu x1 x2 x3

/-- C137: but `StaticFile` has one address for all of the directory: whatever entry the client asks for next is not sent. -/
theorem C137_nowhere {name : Str} (hname : slash ∉ name ∧ name ≠ []) (hlast : path.getLast? = some slash)
    (ha : SingleApp rx o io disk pattern file (path ++ name) e) {req : Req} (hg : PlainGet req) (hr : Routed req) (hp : req.path = path ++ name)
    (h301 : o.bad 301 = false) (h400 : o.bad 400 = false) (c : Ctx ω) (body : Option Str) {w w1 w2 : ω}
    {dir last : Str} (hs : slash ∉ last) (hdir : dir = [] ∨ dir.getLast? = some slash) (hl : last ≠ b!"..") (hf : file = dir ++ last)
    {f : Nat} {i : FileInfo} (hopen : disk.fs.openFile (pathClean file) w = (w1, some f)) (hstat : disk.fs.stat f w1 = (w2, some i)) (hid : i.dir = true) :
    let sv := serve rx o e c req Writer.new body w
    sv.out = .ret ∧ (received sv.rw.log = some 301 ∨ received sv.rw.log = some 400) := by
  by_cases hd : HasDotDot (path ++ name)
  · have := C134_refused ha hg hr hp h400 c body w hd
    exact ⟨this.1, .inr this.2.1⟩
  by_cases hi : NamesIndex (path ++ name)
  · have := C134_index ha hg hr hp h301 c body w hd hi
    exact ⟨this.1, .inl this.2.1⟩
  · have := C134_directory ha hg hr hp h301 c body hd hi hs hdir hl hf hopen hstat hid hname (.inr hlast) rfl
    exact ⟨this.1, .inl this.2.1⟩

end

/-- C137 fails for the file `a&lt;b`: its link leads to `a<b`. -/
theorem C137_refuted : ¬ C137_claim := by
  intro h
  obtain ⟨x, t, h1, hq, _, _, h2⟩ := h b!"/" (b!"a&lt;b", false) ⟨rfl, rfl, by decide +kernel⟩
    ⟨by decide, by decide, by decide, by decide⟩ (by decide)
  have hx : x = b!"a&lt;b" := by
    have e : listLine (shownName (b!"a&lt;b", false)) = b!"<a href=\"" ++ (b!"a&lt;b" ++ 34 :: b!">a&amp;lt;b</a>\n") := by decide +kernel
    rw [e, List.append_assoc, List.append_assoc, List.append_assoc] at h1
    have h1 := List.append_cancel_left h1
    have k1 : (b!"a&lt;b" ++ 34 :: b!">a&amp;lt;b</a>\n").takeWhile (· != 34) = b!"a&lt;b" := by decide +kernel
    rw [h1] at k1
    rw [← k1]
    symm
    show List.takeWhile _ (x ++ 34 :: (b!">" ++ (t ++ b!"</a>\n"))) = x
    rw [List.takeWhile_append_of_pos (fun c hc => by simpa using fun hh : c = 34 => hq (hh ▸ hc))]
    simp
  subst hx
  have hr : AttrReads b!"a&lt;b" b!"a<b" :=
    .plain (by decide) (.reference (e := b!"&lt;") (by decide) (.plain (by decide) .nil))
  exact absurd (h2 _ hr).2 (by decide +kernel)

/-- C137: and a file with the right name makes a link that runs a script: `javascript&colon;alert(1)`. -/
theorem C137_script_refuted : ∃ n h t a, FileName n ∧ listLine n = b!"<a href=\"" ++ h ++ b!"\">" ++ t ++ b!"</a>\n" ∧ AttrReads h a ∧
    Absolute a ∧ hasPrefix a b!"javascript:" = true ∧ pctDecode a = b!"javascript:alert(1)" := by
  refine ⟨b!"javascript&colon;alert(1)", b!"javascript&colon;alert%281%29", b!"javascript&amp;colon;alert(1)", b!"javascript:alert%281%29",
    ⟨by decide, by decide, by decide, by decide⟩, by decide +kernel, ?_, ?_, by decide +kernel, by decide +kernel⟩
  · refine .plain (by decide) (.plain (by decide) (.plain (by decide) (.plain (by decide) (.plain (by decide) (.plain (by decide)
      (.plain (by decide) (.plain (by decide) (.plain (by decide) (.plain (by decide) (.reference (e := b!"&colon;") (by decide) ?_))))))))))
    exact attrReads_self (by decide +kernel)
  · exact ⟨b!"javascript", b!"alert%281%29", rfl, ⟨⟨106, b!"avascript", rfl, by unfold Letter; decide⟩, by unfold Letter; decide +kernel⟩⟩

namespace Demo

/-- names with what has to be escaped: a link to each, and where it leads from `/d/` -/
theorem C137_demo :
    listLine b!"a <b>?.txt" = b!"<a href=\"a%20%3Cb%3E%3F.txt\">a &lt;b&gt;?.txt</a>\n" ∧
    listLine b!"c:d/" = b!"<a href=\"./c:d/\">c:d/</a>\n" ∧ listLine b!"*" = b!"<a href=\"*\">*</a>\n" ∧ listLine b!"*/" = b!"<a href=\"%2A/\">*/</a>\n" ∧
    follow b!"/d/" b!"a%20%3Cb%3E%3F.txt" = b!"/d/a%20%3Cb%3E%3F.txt" ∧ follow b!"/d/" b!"./c:d/" = b!"/d/c:d/" ∧
    follow b!"/d/x" b!"../%2e/e?q" = b!"/e" ∧ follow b!"/d/" b!"/z/.." = b!"/" ∧ follow b!"/d/x" b!"?q" = b!"/d/x" := by
  decide +kernel

/-- a directory address, an entry, and the link -/
theorem C137_demo_link : Links b!"/d%20e/" (listLine b!"c:d/") b!"c:d/" :=
  C137_link_partial (e := (b!"c:d", true)) ⟨rfl, rfl, by decide +kernel⟩ ⟨by decide, by decide, by decide, by decide⟩ (by decide) (by decide)

end Demo

end Water
