import Verif.Props.Redirect
/- Property C85: redirects as browsers read them. -/
namespace Water
open Spec Demo

private theorem digits_plain : ∀ c : UInt8, ¬ (hexDigit (c.toNat / 16) = 9 ∨ hexDigit (c.toNat / 16) = 10 ∨ hexDigit (c.toNat / 16) = 13 ∨
      hexDigit (c.toNat / 16) = 92) ∧
    ¬ (hexDigit (c.toNat % 16) = 9 ∨ hexDigit (c.toNat % 16) = 10 ∨ hexDigit (c.toNat % 16) = 13 ∨ hexDigit (c.toNat % 16) = 92) := by
  apply all_bytes
  decide +kernel

private theorem hexEscape_plain {s : Str} (h : ∀ c ∈ s, ¬ WebByte c) : ∀ c ∈ hexEscapeNonASCII s, ¬ WebByte c := by
  intro c hc
  unfold hexEscapeNonASCII at hc
  obtain ⟨d, hd, hc⟩ := List.mem_flatMap.1 hc
  by_cases h8 : d ≥ 0x80
  · rw [if_pos h8] at hc
    simp only [List.mem_cons, List.not_mem_nil, or_false] at hc
    rcases hc with rfl | rfl | rfl
    · unfold WebByte; decide
    · exact (digits_plain d).1
    · exact (digits_plain d).2
  · rw [if_neg h8, List.mem_singleton] at hc
    rw [hc]; exact h d hd

private theorem webReads_plain {s : Str} (h : ∀ c ∈ s, ¬ WebByte c) : webReads s = s := by
  unfold webReads
  rw [List.filter_eq_self.2]
  · conv => rhs; rw [← List.map_id s]
    apply List.map_congr_left
    intro c hc
    have := h c hc
    unfold WebByte at this
    rw [if_neg (by intro e; exact this (.inr (.inr (.inr e))))]
    rfl
  · intro c hc
    have := h c hc
    unfold WebByte at this
    simp only [bne_iff_ne, Bool.and_eq_true, ne_eq]
    exact ⟨⟨fun e => this (.inl e), fun e => this (.inr (.inl e))⟩, fun e => this (.inr (.inr (.inl e)))⟩

/-- **C85 (browsers, partial).** A redirect to an address without scheme and host stays on the host for a browser too, if the address
and, for an address that does not start with a slash, the path of the request have no backslash, tab or line end. Missing: with such
bytes in the path a browser is sent to another host (`C85_refuted_web`). -/
theorem C85_web_partial (env : RedirEnv) {path url : Str} (hl : env.isLocal url = true) (hp : path = [] ∨ path.head? = some slash)
    (hu : ∀ c ∈ url, ¬ WebByte c) (hw : url.head? ≠ some slash → ∀ c ∈ path, ¬ WebByte c) :
    OnHost (webReads (hexEscapeNonASCII (redirectTarget env path url))) := by
  have hmem : ∀ c ∈ redirectTarget env path url, ¬ WebByte c := by
    intro c hc
    unfold redirectTarget at hc
    rw [if_pos hl] at hc
    simp only [] at hc
    have hall : ∀ c ∈ (if url.head? ≠ some slash then splitDir (if path = [] then [slash] else path) ++ url else url), ¬ WebByte c := by
      intro c hc
      by_cases h : url.head? ≠ some slash
      · rw [if_pos h] at hc
        rcases List.mem_append.1 hc with hc | hc
        · have hc := mem_splitDir hc
          by_cases h0 : path = []
          · rw [if_pos h0, List.mem_singleton] at hc
            rw [hc]; unfold WebByte; decide
          · rw [if_neg h0] at hc
            exact hw h c hc
        · exact hu c hc
      · rw [if_neg h] at hc
        exact hu c hc
    rcases List.mem_append.1 hc with hc | hc
    · rcases cleanKeep_mem hc with rfl | rfl | hc
      · unfold WebByte; decide
      · unfold WebByte; decide
      · exact hall c ((List.takeWhile_sublist _).subset hc)
    · exact hall c ((List.dropWhile_sublist _).subset hc)
  rw [webReads_plain (hexEscape_plain hmem)]
  exact C85_onhost env hl hp

/-- the hypotheses of `C85_web_partial` are met by an address that goes up -/
example : redirEnv.isLocal b!"../b/?x=1/.." = true ∧ (∀ c ∈ b!"../b/?x=1/..", ¬ (c = 9 ∨ c = 10 ∨ c = 13 ∨ c = 92)) ∧
    OnHost (webReads b!"/a/b/?x=1/..") := by
  unfold OnHost; decide +kernel

/-- **C85 refuted for browsers.** The address `home` has neither scheme nor host. A request for `/\\evil.example/login` (asked for as
`/%5Cevil.example/login`), or for a path whose first segment is a tab, answered with `Found("home")`, sends a browser to the host
`evil.example`. -/
theorem C85_refuted_web :
    redirEnv.isLocal b!"home" = true ∧
    (∃ loc, locationOf (sentBy (found redirEnv b!"home") b!"/\\evil.example/login") = some [loc] ∧
      webReads loc = b!"//evil.example/home" ∧ ¬ OnHost (webReads loc)) ∧
    (∃ loc, locationOf (sentBy (found redirEnv b!"home") b!"/\t/evil.example/login") = some [loc] ∧
      webReads loc = b!"//evil.example/home" ∧ ¬ OnHost (webReads loc)) := by
  refine ⟨by decide +kernel, ⟨b!"/\\evil.example/home", by decide +kernel, by decide +kernel, by unfold OnHost; decide +kernel⟩,
    ⟨b!"/\t/evil.example/home", by decide +kernel, by decide +kernel, by unfold OnHost; decide +kernel⟩⟩

end Water
