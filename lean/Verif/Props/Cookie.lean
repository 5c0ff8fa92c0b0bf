import Verif.Props.Values
import Verif.Lemmas.Cookie
import Verif.Lemmas.Middleware
/-
C54, C55: `SetCookie`; and what comes back with `Cookie`.
-/
namespace Water
open Spec

/-- the cookie built from the arguments, in the words of the specification -/
theorem buildCookie_spec (name value : Str) (others : List CArg) :
    (buildCookie name value others).name = name ∧ (buildCookie name value others).value = value ∧
    (buildCookie name value others).path = pathArg others ∧
    (buildCookie name value others).maxAge = ageArg others ∧
    (buildCookie name value others).domain = (domainArg others).getD [] ∧
    (buildCookie name value others).secure = secureArg others ∧
    (buildCookie name value others).httpOnly = httpOnlyArg others ∧
    (buildCookie name value others).sameSite = (match (others[5]? : Option CArg) with | some (.sameSite v) => v | _ => 0) := by
  refine ⟨rfl, rfl, ?_, ?_, ?_, ?_, ?_, rfl⟩
  · simp only [buildCookie, pathArg]
    rcases (others[1]? : Option CArg) with _ | a
    · rfl
    · cases a <;> try rfl
      rename_i s; cases s <;> rfl
  · simp only [buildCookie, ageArg]
    rcases (others[0]? : Option CArg) with _ | a
    · rfl
    · cases a <;> rfl
  · simp only [buildCookie, domainArg]
    rcases (others[2]? : Option CArg) with _ | a
    · rfl
    · cases a <;> try rfl
      rename_i s; cases s <;> rfl
  · simp only [buildCookie, secureArg]
    rcases (others[3]? : Option CArg) with _ | a
    · rfl
    · cases a <;> try rfl
      rename_i b; cases b <;> rfl
  · simp only [buildCookie, httpOnlyArg]
    rcases (others[4]? : Option CArg) with _ | a
    · rfl
    · cases a <;> try rfl
      rename_i b; cases b <;> rfl

theorem sameSite_spec (others : List CArg) :
    ∀ s : SameSite, s = (match (others[5]? : Option CArg) with | some (.sameSite v) => v | _ => 0) →
    (if s = 1 then b!"; SameSite" else if s = 2 then b!"; SameSite=Lax"
      else if s = 3 then b!"; SameSite=Strict" else if s = 4 then b!"; SameSite=None" else []) =
    (siteArg others).flatMap (fun p => 59 :: p) := by
  rintro s rfl
  unfold siteArg
  rcases (others[5]? : Option CArg) with _ | a
  · rfl
  · cases a <;> try rfl
    rename_i v
    simp only [Option.some.injEq, CArg.sameSite.injEq]
    by_cases h1 : v = 1
    · subst h1; rfl
    · by_cases h2 : v = 2
      · subst h2; rfl
      · by_cases h3 : v = 3
        · subst h3; rfl
        · by_cases h4 : v = 4
          · subst h4; rfl
          · simp only [if_neg h1, if_neg h2, if_neg h3, if_neg h4]; rfl

/-- the attributes with the path as it is sent -/
def sentAttributes (ok : Str → Bool) (others : List CArg) : List Str :=
  [b!" Path=" ++ sanitizePath (pathArg others)] ++ (attributes ok others).drop 1

theorem pathArg_ne (others : List CArg) : pathArg others ≠ [] := by
  unfold pathArg
  rcases (others[1]? : Option CArg) with _ | a
  · simp
  · cases a <;> try simp [textArg]
    rename_i s; cases s <;> simp

theorem domainArg_ne {others : List CArg} {d : Str} (h : domainArg others = some d) : d ≠ [] := by
  unfold domainArg at h
  rcases ho : (others[2]? : Option CArg) with _ | a
  · rw [ho] at h; cases h
  · rw [ho] at h
    cases a <;> simp [textArg] at h
    rename_i s
    cases s with
    | nil => simp at h
    | cons x xs => simp at h; rw [← h]; simp

theorem line_eq {ip : Str → Bool} {name value : Str} {others : List CArg} (hn : Token name) :
    (buildCookie name value others).line ip =
      join [59] ((name ++ [61] ++ wire (value.filter cookieValueByte)) :: sentAttributes (cookieDomainValid ip) others) := by
  obtain ⟨h1, h2, h3, h4, h5, h6, h7, h8⟩ := buildCookie_spec name value others
  have h9 := sameSite_spec others _ h8
  unfold Cookie.line
  rw [h1, h2, h3, h4, h5, h6, h7, h9, sanitizeValue_eq, token_iff.2 hn, join_semi]
  have hp : (pathArg others).length > 0 := List.length_pos_iff.2 (pathArg_ne others)
  rw [if_neg (by simp), if_pos hp]
  unfold sentAttributes attributes
  simp only [List.cons_append, List.nil_append, List.drop_succ_cons, List.drop_zero, List.flatMap_cons, List.flatMap_append,
    List.append_assoc]
  have e1 : (if ((domainArg others).getD []).length > 0 ∧ cookieDomainValid ip ((domainArg others).getD []) = true then
      b!"; Domain=" ++ (if ((domainArg others).getD []).head? = some 46 then ((domainArg others).getD []).drop 1
        else (domainArg others).getD []) else []) =
      (match domainArg others with
        | some d => if cookieDomainValid ip d then [b!" Domain=" ++ (if d.head? = some 46 then d.tail else d)] else []
        | none => []).flatMap (fun p => 59 :: p) := by
    cases hd : domainArg others with
    | none => rfl
    | some d =>
      have hl : d.length > 0 := List.length_pos_iff.2 (domainArg_ne hd)
      simp only [Option.getD_some, hl, true_and]
      split
      · simp [List.drop_one]
      · rfl
  have e2 : (if ageArg others > 0 then b!"; Max-Age=" ++ itoa (ageArg others) else if ageArg others < 0 then b!"; Max-Age=0" else []) =
      (if ageArg others > 0 then [b!" Max-Age=" ++ itoa (ageArg others)]
        else if ageArg others < 0 then [b!" Max-Age=0"] else []).flatMap (fun p => 59 :: p) := by
    split
    · simp
    · split <;> rfl
  have e3 : (if httpOnlyArg others = true then b!"; HttpOnly" else []) =
      (if httpOnlyArg others = true then [b!" HttpOnly"] else []).flatMap (fun p => 59 :: p) := by
    split <;> rfl
  have e4 : (if secureArg others = true then b!"; Secure" else []) =
      (if secureArg others = true then [b!" Secure"] else []).flatMap (fun p => 59 :: p) := by
    split <;> rfl
  simp only [List.cons_append, List.nil_append] at e1 e2 e3 e4 ⊢
  rw [e1, e2, e3, e4]; rfl

theorem attributes_no_semi {ip : Str → Bool} {others : List CArg} (hip : ∀ d, ip d = true → 59 ∉ d) :
    ∀ x ∈ sentAttributes (cookieDomainValid ip) others, 59 ∉ x := by
  intro x hx
  unfold sentAttributes attributes at hx
  simp only [List.cons_append, List.nil_append, List.drop_succ_cons, List.drop_zero, List.mem_cons, List.mem_append] at hx
  rcases hx with rfl | (((hx | hx) | hx) | hx) | hx
  · simp [sanitizePath_no_semi]
  · split at hx
    · rename_i d hd
      split at hx
      · rename_i hok
        simp only [List.mem_singleton] at hx
        subst hx
        have hds : 59 ∉ d := by
          unfold cookieDomainValid at hok
          simp only [Bool.or_eq_true] at hok
          exact hok.elim domainName_no_semi (hip d)
        have hrest : 59 ∉ (if d.head? = some 46 then d.tail else d) := by
          split
          · exact fun h => hds (List.mem_of_mem_tail h)
          · exact hds
        exact mt (List.mem_append (s := b!" Domain=")).1 (not_or.2 ⟨by decide, hrest⟩)
      · cases hx
    · cases hx
  · split at hx
    · simp only [List.mem_singleton] at hx
      subst hx
      exact mt (List.mem_append (s := b!" Max-Age=")).1 (not_or.2 ⟨by decide, itoa_no_semi _⟩)
    · split at hx
      · simp only [List.mem_singleton] at hx
        subst hx
        decide
      · cases hx
  · split at hx
    · simp only [List.mem_singleton] at hx
      subst hx
      decide
    · cases hx
  · split at hx
    · simp only [List.mem_singleton] at hx
      subst hx
      decide
    · cases hx
  · unfold siteArg at hx
    split at hx
    · simp only [List.mem_singleton] at hx; subst hx; decide
    · split at hx
      · simp only [List.mem_singleton] at hx; subst hx; decide
      · split at hx
        · simp only [List.mem_singleton] at hx; subst hx; decide
        · split at hx
          · simp only [List.mem_singleton] at hx; subst hx; decide
          · cases hx

/-- Exactly one line is added to the Set-Cookie header, whatever the arguments; nothing else in the header changes. -/
theorem C54_one_line (ip : Str → Bool) (h : Header) (name value : Str) (others : List CArg) :
    ∃ line, setCookie ip h name value others b!"Set-Cookie" = some ((h b!"Set-Cookie").getD [] ++ [line]) ∧
      (∀ k, k ≠ b!"Set-Cookie" → setCookie ip h name value others k = h k) ∧
      line = (buildCookie name value others).line ip := by
  refine ⟨_, ?_, ?_, rfl⟩
  · unfold setCookie
    rw [add_canon (by decide)]; simp [Map.set]
  · intro k hk
    unfold setCookie
    rw [add_canon (by decide)]; simp [Map.set, hk]

/-- C54, for values and paths that can be encoded: one line is added; between its semicolons stand the name and value,
and then exactly the attributes that the positional arguments ask for, in order. `hip` says that no IP address contains a
semicolon. Missing from the full claim: values and paths with other bytes, see `C54_sanitised` and `C54_refuted`. -/
theorem C54_line_partial {ip ok : Str → Bool} (hip : ∀ d, ip d = true → 59 ∉ d)
    (hok : ∀ d, ok d = true ↔ DomainName d ∨ ip d = true) (h : Header) {name value : Str} {others : List CArg}
    (hn : Token name) (hv : ∀ c ∈ value, ValueByte c) (hp : ∀ c ∈ pathArg others, PathByte c) :
    ∃ line, setCookie ip h name value others b!"Set-Cookie" = some ((h b!"Set-Cookie").getD [] ++ [line]) ∧
      (∀ k, k ≠ b!"Set-Cookie" → setCookie ip h name value others k = h k) ∧
      splitB 59 line = (name ++ [61] ++ wire value) :: attributes ok others := by
  obtain rfl := domainValid_eq hok
  obtain ⟨line, h1, h2, rfl⟩ := C54_one_line ip h name value others
  refine ⟨_, h1, h2, ?_⟩
  rw [line_eq hn, filter_valid hv, splitB_join (by simp)]
  · have : sanitizePath (pathArg others) = pathArg others :=
      List.filter_eq_self.2 (fun c hc => (pathByte_iff c).2 (hp c hc))
    unfold sentAttributes
    rw [this]; rfl
  · intro x hx
    rcases List.mem_cons.1 hx with rfl | hx
    · simp only [List.mem_append, not_or]
      refine ⟨⟨fun h => (token_byte _ (hn.2 _ h)).2.1 rfl, by decide⟩, wire_no_semi (fun h => (hv _ h).2.2.2.1 rfl)⟩
    · exact attributes_no_semi hip x hx

/-- C54, any value and path: bytes that cannot be encoded are left out, everything else is as asked for. -/
theorem C54_sanitised {ip ok : Str → Bool} (hip : ∀ d, ip d = true → 59 ∉ d)
    (hok : ∀ d, ok d = true ↔ DomainName d ∨ ip d = true) (h : Header) {name : Str} (value : Str)
    (others : List CArg) (hn : Token name) :
    ∃ line v p, setCookie ip h name value others b!"Set-Cookie" = some ((h b!"Set-Cookie").getD [] ++ [line]) ∧
      v.Sublist value ∧ (∀ c ∈ v, ValueByte c) ∧ v.length = value.countP (fun c => cookieValueByte c) ∧
      p.Sublist (pathArg others) ∧ (∀ c ∈ p, PathByte c) ∧
      splitB 59 line = (name ++ [61] ++ wire v) :: (b!" Path=" ++ p) :: (attributes ok others).drop 1 := by
  obtain rfl := domainValid_eq hok
  obtain ⟨line, h1, h2, rfl⟩ := C54_one_line ip h name value others
  refine ⟨_, value.filter cookieValueByte, sanitizePath (pathArg others), h1, List.filter_sublist, ?_, ?_, List.filter_sublist, ?_, ?_⟩
  · intro c hc; exact (valueByte_iff c).1 (List.mem_filter.1 hc).2
  · rw [List.countP_eq_length_filter]
  · intro c hc; exact (pathByte_iff c).1 (List.mem_filter.1 hc).2
  · rw [line_eq hn, splitB_join (by simp)]
    · rfl
    · intro x hx
      rcases List.mem_cons.1 hx with rfl | hx
      · simp only [List.mem_append, not_or]
        refine ⟨⟨fun h => (token_byte _ (hn.2 _ h)).2.1 rfl, by decide⟩, wire_no_semi (filter_no_semi _)⟩
      · exact attributes_no_semi hip x hx

/-- C54: an extra argument decides no attribute but its own, whatever its type: argument lists that differ only in
position `j` give cookies that differ only in attribute `j`. -/
theorem C54_position {others others' : List CArg} {j : Nat} (h : ∀ i, i ≠ j → others[i]? = others'[i]?) (name value : Str) :
    (j ≠ 0 → (buildCookie name value others).maxAge = (buildCookie name value others').maxAge) ∧
    (j ≠ 1 → (buildCookie name value others).path = (buildCookie name value others').path) ∧
    (j ≠ 2 → (buildCookie name value others).domain = (buildCookie name value others').domain) ∧
    (j ≠ 3 → (buildCookie name value others).secure = (buildCookie name value others').secure) ∧
    (j ≠ 4 → (buildCookie name value others).httpOnly = (buildCookie name value others').httpOnly) ∧
    (j ≠ 5 → (buildCookie name value others).sameSite = (buildCookie name value others').sameSite) ∧
    (buildCookie name value others).name = (buildCookie name value others').name ∧
    (buildCookie name value others).value = (buildCookie name value others').value := by
  refine ⟨?_, ?_, ?_, ?_, ?_, ?_, rfl, rfl⟩ <;> intro hj <;> simp only [buildCookie, h _ (Ne.symm hj)]

/-- C54 does not hold in full: a value with a semicolon is sent without it. -/
theorem C54_refuted : ∃ (value : Str) (line : Str),
    setCookie (fun _ => false) Map.empty b!"a" value [] b!"Set-Cookie" = some [line] ∧
    line = b!"a=xy; Path=/" ∧ value = b!"x;y" :=
  ⟨b!"x;y", b!"a=xy; Path=/", by decide +kernel, rfl, rfl⟩

/-- C54: what was set is what is read back: `Cookie` finds the values of all cookies whose names are tokens and whose values
can be encoded, when the client sends them back as they were sent to it. -/
theorem C54_round_trip {h : Header} {cs : List (Str × Str)} (hn : ∀ c ∈ cs, Token c.1) (hv : ∀ c ∈ cs, ∀ x ∈ c.2, ValueByte x)
    (hh : h b!"Cookie" = some [join b!"; " (cs.map (fun c => c.1 ++ [61] ++ wire c.2))]) :
    readCookies h = cs ∧
    ∀ name v, name ≠ [] → cs.lookup name = some v → cookieOf h name = v := by
  have hr : readCookies h = cs := by
    obtain ⟨h1, h2⟩ := cookieHeader_ends hn hv
    unfold readCookies
    rw [hh]
    show [cookieHeader cs].flatMap _ = cs
    simp only [List.flatMap_cons, List.flatMap_nil, List.append_nil]
    rw [trimSpace_ends h1 h2]
    exact cookieLine_all hn hv _ [] (Nat.lt_succ_of_le (cookieHeader_length cs)) (Or.inl rfl)
  refine ⟨hr, ?_⟩
  intro name v hne hl
  unfold cookieOf cookie
  rw [hr]
  clear hr hh hn hv
  induction cs with
  | nil => cases hl
  | cons c cs ih =>
    obtain ⟨n, w⟩ := c
    rw [List.lookup_cons] at hl
    by_cases he : name = n
    · subst he
      simp at hl
      subst hl
      simp
    · have : (name == n) = false := by simpa using he
      rw [this] at hl
      have h2 : (decide (name = []) || (n == name)) = false := by
        simp [hne, Ne.symm he]
      simp only [List.find?_cons, h2]
      exact ih hl

example : setCookie (fun _ => false) Map.empty b!"a" b!"x y" [.int 3600, .string b!"/p", .string b!".example.com", .other 0,
      .bool true, .sameSite 2] b!"Set-Cookie" =
    some [b!"a=\"x y\"; Path=/p; Domain=example.com; Max-Age=3600; HttpOnly; Secure; SameSite=Lax"] := by decide +kernel

example : cookieOf (Map.set Map.empty b!"Cookie" [b!"a=1; b=\"x y\"; c="]) b!"b" = b!"x y" := by decide +kernel

/-- C38 for cookies, from the text of the request: the client sends the cookies `cs` back, and the first one of a name is a
number in decimal; the readers of cookies give that number. -/
theorem C38_cookie {h : Header} {cs : List (Str × Str)} (hn : ∀ c ∈ cs, Token c.1) (hv : ∀ c ∈ cs, ∀ x ∈ c.2, ValueByte x)
    (hh : h b!"Cookie" = some [join b!"; " (cs.map (fun c => c.1 ++ [61] ++ wire c.2))]) {name : Str} (hne : name ≠ []) :
    (∀ i : Int, -(2 ^ 63) ≤ i → i < 2 ^ 63 → cs.lookup name = some (itoa i) →
      cookieInt (readCookies h) name = i ∧ cookieInt64 (readCookies h) name = i) ∧
    ∀ n : Nat, n < 2 ^ 64 → cs.lookup name = some (itoaNat n) →
      cookieUint (readCookies h) name = n ∧ cookieUint64 (readCookies h) name = n := by
  obtain ⟨_, hc⟩ := C54_round_trip hn hv hh
  exact ⟨fun i h1 h2 hl => (C38_int h1 h2 name).2.2 _ (hc name _ hne hl),
    fun n h1 hl => (C38_uint h1 name).2.2 _ (hc name _ hne hl)⟩

example : (∀ c ∈ [(b!"a", b!"-7"), (b!"a", b!"8")], ∀ x ∈ c.2, ValueByte x) ∧
    cookieInt (readCookies (Map.set Map.empty b!"Cookie" [b!"a=-7; a=8"])) b!"a" = -7 := by
  refine ⟨?_, by decide +kernel⟩
  unfold ValueByte
  decide +kernel

/-! ### C55 -/

/-- C55, what does hold of the code: with a name that is not a token the added line is empty, so that no cookie reaches the
client. Missing from the full claim: that no Set-Cookie header is added at all, see `C55_refuted`. -/
theorem C55_empty_partial (ip : Str → Bool) (h : Header) {name : Str} (value : Str) (others : List CArg) (hn : ¬ Token name) :
    setCookie ip h name value others b!"Set-Cookie" = some ((h b!"Set-Cookie").getD [] ++ [[]]) ∧
    ∀ k, k ≠ b!"Set-Cookie" → setCookie ip h name value others k = h k := by
  obtain ⟨line, h1, h2, rfl⟩ := C54_one_line ip h name value others
  refine ⟨?_, h2⟩
  rw [h1]
  have : cookieNameValid name = false := by
    rw [Bool.eq_false_iff]; exact fun h => hn (token_iff.1 h)
  simp [Cookie.line, show (buildCookie name value others).name = name from rfl, this]

/-- C55 does not hold: a Set-Cookie header, with an empty line, is added for every name that cannot be encoded. -/
theorem C55_refuted (ip : Str → Bool) (h : Header) {name : Str} (value : Str) (others : List CArg) (hn : ¬ Token name) :
    setCookie ip h name value others ≠ h := by
  intro he
  have h1 := (C55_empty_partial ip h value others hn).1
  rw [he] at h1
  cases hc : h b!"Set-Cookie" with
  | none => rw [hc] at h1; cases h1
  | some l =>
    rw [hc] at h1
    have := congrArg List.length (Option.some.inj h1)
    simp at this

example : ¬ Token b!"a b" ∧ setCookie (fun _ => false) Map.empty b!"a b" b!"v" [] b!"Set-Cookie" = some [[]] := by
  refine ⟨?_, by decide +kernel⟩
  rw [← token_iff]; decide +kernel

end Water
