import Verif.Lemmas.Text
import Verif.Model.Util
/-
C99: the names of header fields are compared without regard to case. C100: what `IsAjax`, `IsWebsocket` and `Protocol` say
about a request.
-/
namespace Water
open Spec
variable {ω : Type}

/-! ### C38 and C40: the texts they speak of -/

/-- C38: `strconv.Itoa` writes the decimal numeral, without leading zeros, with a minus sign for negative numbers. -/
theorem C38_decimal (i : Int) : SignedDigits decimals i (itoa i) := itoa_digits i

/-- C40: the trimmed text is the only one that is left when surrounding white space is taken away. -/
theorem C40_trim {s t : Str} : Trimmed s t ↔ t = trimSpace s :=
  ⟨trimmed_unique, fun h => h ▸ trimSpace_trimmed s⟩

example : Trimmed (b!" \t" ++ [0xE3, 0x80, 0x80] ++ b!"a b" ++ [0xC2, 0xA0]) b!"a b" := C40_trim.2 (by decide +kernel)

/-! ### C99 -/

/-- C99: two names lead to the same entry of a header exactly if they are equal, or tokens that differ only in the case of
letters. -/
theorem C99_names {a b : Str} : canonKey a = canonKey b ↔ SameHeader a b := canonKey_eq

/-- C99: the name under which a token is kept and sent is the same up to case, with capitals at the start and after dashes
only; any other name is kept as it is. -/
theorem C99_canonical (k : Str) :
    ((∀ c ∈ k, c ∈ tokenBytes) → SameName k (canonKey k) ∧ Capitals (canonKey k)) ∧
    ((¬ ∀ c ∈ k, c ∈ tokenBytes) → canonKey k = k) := by
  have tok : k.all validHeaderByte = true ↔ ∀ c ∈ k, c ∈ tokenBytes := by
    rw [List.all_eq_true]
    exact forall_congr' (fun c => imp_congr_right (fun _ => valid_iff c))
  refine ⟨fun h => ?_, fun h => ?_⟩
  · unfold canonKey
    rw [if_pos (tok.2 h)]
    refine ⟨sameName_canon true k, ?_⟩
    intro a c b he
    have := canonLoop_capitals true k a c b he
    refine ⟨fun ha => this.1 (ha.imp (fun h => ⟨h, rfl⟩) id), fun h1 h2 => this.2 (.inr ⟨h1, h2⟩)⟩
  · unfold canonKey
    rw [if_neg (fun hx => h (tok.1 hx))]

/-- what a step does to a header map -/
def HeaderOp.apply (h : Header) : HeaderOp → Header
  | .set n v => h.put n v
  | .add n v => h.add n v

theorem put_held (h : Header) (n v k : Str) :
    ((h.put n v) (canonKey k)).getD [] = if canonKey n = canonKey k then [v] else (h (canonKey k)).getD [] := by
  unfold Header.put Map.set
  by_cases hk : canonKey n = canonKey k
  · rw [if_pos hk.symm, if_pos hk]; rfl
  · rw [if_neg (fun h => hk h.symm), if_neg hk]

theorem add_held (h : Header) (n v k : Str) :
    ((h.add n v) (canonKey k)).getD [] = (h (canonKey k)).getD [] ++ if canonKey n = canonKey k then [v] else [] := by
  unfold Header.add Map.set
  by_cases hk : canonKey n = canonKey k
  · rw [if_pos hk.symm, if_pos hk, hk]; rfl
  · rw [if_neg (fun h => hk h.symm), if_neg hk, List.append_nil]

theorem get_held (h : Header) (k : Str) : h.get k = ((h (canonKey k)).getD []).headD [] := by
  unfold Header.get
  cases h (canonKey k) with
  | none => rfl
  | some l => cases l <;> rfl

/-- C99: after any steps on a header, under whatever spellings, a name holds what these steps gave to names that are the
same, and `Get` returns the first of its values. -/
theorem C99_header (ops : List HeaderOp) (h : Header) (k : Str) :
    ∃ ws, HeldAfter k ops ((h (canonKey k)).getD []) ws ∧
      ((ops.foldl HeaderOp.apply h) (canonKey k)).getD [] = ws ∧ (ops.foldl HeaderOp.apply h).get k = ws.headD [] := by
  induction ops generalizing h with
  | nil => exact ⟨_, .nil, rfl, get_held h k⟩
  | cons op ops ih =>
    cases op with
    | set n v =>
      obtain ⟨ws, h1, h2⟩ := ih (h.put n v)
      rw [put_held] at h1
      refine ⟨ws, ?_, h2⟩
      by_cases hk : canonKey n = canonKey k
      · rw [if_pos hk] at h1; exact .set (canonKey_eq.1 hk) h1
      · rw [if_neg hk] at h1; exact .otherSet (fun hx => hk (canonKey_eq.2 hx)) h1
    | add n v =>
      obtain ⟨ws, h1, h2⟩ := ih (h.add n v)
      rw [add_held] at h1
      refine ⟨ws, ?_, h2⟩
      by_cases hk : canonKey n = canonKey k
      · rw [if_pos hk] at h1; exact .add (canonKey_eq.1 hk) h1
      · rw [if_neg hk, List.append_nil] at h1; exact .otherAdd (fun hx => hk (canonKey_eq.2 hx)) h1

/-- C99: `HeldAfter` leaves no choice. -/
theorem C99_determined {k : Str} {ops : List HeaderOp} {vs ws ws' : List Str} (h : HeldAfter k ops vs ws)
    (h' : HeldAfter k ops vs ws') : ws = ws' := by
  induction h with
  | nil => cases h'; rfl
  | set hs _ ih =>
    cases h' with
    | set _ h' => exact ih h'
    | otherSet hn _ => exact absurd hs hn
  | add hs _ ih =>
    cases h' with
    | add _ h' => exact ih h'
    | otherAdd hn _ => exact absurd hs hn
  | otherSet hn _ ih =>
    cases h' with
    | set hs _ => exact absurd hs hn
    | otherSet _ h' => exact ih h'
  | otherAdd hn _ ih =>
    cases h' with
    | add hs _ => exact absurd hs hn
    | otherAdd _ h' => exact ih h'

/-- C99: `ctx.SetHeader` under any spelling replaces the values of the name and of no other, and a handler reads a request
header under any spelling alike. -/
theorem C99_handler (o : Oracle) (req : Req) (s : St ω) (n v k : Str) :
    (∃ s', doCall o req s (.setHeader n v) = (.ok .unit, s') ∧
      (SameHeader n k → s'.rw.header.get k = v) ∧ (¬ SameHeader n k → s'.rw.header.get k = s.rw.header.get k)) ∧
    (SameHeader n k → doCall o req s (.reqHeader n) = doCall o req s (.reqHeader k)) := by
  refine ⟨⟨_, rfl, ?_, ?_⟩, ?_⟩
  · intro h
    show (s.rw.header.put n v).get k = v
    rw [get_held, put_held, if_pos (canonKey_eq.2 h)]; rfl
  · intro h
    show (s.rw.header.put n v).get k = _
    rw [get_held, put_held, if_neg (fun hx => h (canonKey_eq.1 hx)), get_held]
  · intro h
    simp only [doCall]
    unfold Header.get
    rw [canonKey_eq.2 h]

namespace Demo

/-- two spellings of a name -/
theorem spelled : SameHeader b!"x-request-ID" b!"X-Request-Id" := C99_names.1 (by decide +kernel)

/-- a name that is not a token has no other spelling -/
theorem unspelled : ¬ SameHeader b!"x request" b!"X request" := fun h => absurd (C99_names.2 h) (by decide +kernel)

/-- A name is set in one spelling, added to in another. -/
theorem C99_demo : HeldAfter b!"VARY" [.set b!"vary" b!"Origin", .add b!"Vary" b!"Accept", .set b!"X-A" b!"b"] [b!"old"]
    [b!"Origin", b!"Accept"] := by
  have h1 : SameHeader b!"vary" b!"VARY" := C99_names.1 (by decide +kernel)
  have h2 : SameHeader b!"Vary" b!"VARY" := C99_names.1 (by decide +kernel)
  have h3 : ¬ SameHeader b!"X-A" b!"VARY" := fun h => absurd (C99_names.2 h) (by decide +kernel)
  exact .set h1 (.add h2 (.otherSet h3 .nil))

end Demo

/-! ### C100 -/

/-- C100: `IsWebsocket` holds exactly if the Connection header mentions `upgrade` and the Upgrade header is `websocket`, in
letters of either case. -/
theorem C100_websocket (h : Header) :
    isWebsocket h = true ↔ Mentions b!"upgrade" (h.get b!"Connection") ∧ ReadsSmall b!"websocket" (h.get b!"Upgrade") := by
  have low : ∀ w ∈ [b!"upgrade", b!"websocket"], ∀ c ∈ w, smallByte c := by decide +kernel
  unfold isWebsocket
  rw [Bool.and_eq_true, containsStr_iff (by simp), contains_lower (low _ (by simp)) (by simp), beq_iff_eq,
    toLower_iff (low _ (by simp))]
  rfl

/-- C100: `IsAjax` holds exactly for the value `XMLHttpRequest`, in these letters. -/
theorem C100_ajax (h : Header) : isAjax h = true ↔ h.get b!"X-Requested-With" = b!"XMLHttpRequest" := by
  unfold isAjax
  rw [beq_iff_eq]

/-- C100: `Protocol` is always `http` or `https`: what X-Forwarded-Proto says if that is one of the two, else whether the
connection is encrypted. The header wins even on a plain connection. -/
theorem C100_protocol (h : Header) (tls : Bool) :
    (protocolOf h tls = b!"https" ∨ protocolOf h tls = b!"http") ∧
    (protocolOf h tls = b!"https" ↔ h.get b!"X-Forwarded-Proto" = b!"https" ∨
      (tls = true ∧ h.get b!"X-Forwarded-Proto" ≠ b!"http")) := by
  unfold protocolOf
  by_cases h1 : h.get b!"X-Forwarded-Proto" = b!"http"
  · rw [h1]; cases tls <;> decide
  · by_cases h2 : h.get b!"X-Forwarded-Proto" = b!"https"
    · rw [h2]; cases tls <;> decide
    · simp only [h1, h2, or_self, if_false, false_or, not_false_eq_true, and_true, ne_eq]
      cases tls <;> decide

namespace Demo

/-- the header of a request to open a web socket -/
def socketHeader : Header :=
  Header.put (Header.put Map.empty b!"connection" b!"keep-alive, Upgrade") b!"upgrade" b!"WebSocket"

/-- It is recognised. -/
theorem C100_socket : Mentions b!"upgrade" (socketHeader.get b!"Connection") ∧
    ReadsSmall b!"websocket" (socketHeader.get b!"Upgrade") := (C100_websocket socketHeader).1 (by decide +kernel)

/-- It is also recognised with the Kelvin sign for the letter k. -/
theorem C100_kelvin : isWebsocket (socketHeader.put b!"upgrade" (b!"websoc" ++ [0xE2, 0x84, 0xAA] ++ b!"et")) = true := by
  decide +kernel

/-- Without the Connection header it is not a web socket. -/
theorem C100_no_socket : ¬ (Mentions b!"upgrade" (Header.get (Header.put Map.empty b!"upgrade" b!"websocket") b!"Connection")) := by
  rintro ⟨a, m, b, h, hm⟩
  have he : (Header.get (Header.put Map.empty b!"upgrade" b!"websocket") b!"Connection") = [] := by decide +kernel
  rw [he] at h
  have : m = [] := by
    cases m with
    | nil => rfl
    | cons x m => simp at h
  subst this
  generalize hw : b!"upgrade" = w at hm
  generalize hs : ([] : Str) = s at hm
  cases hm with
  | nil => cases hw
  | @cons c x _ _ hx _ =>
    have : x ≠ [] := by
      cases hw
      exact (small_start 117 (by decide +kernel) x hx).1
    cases x with
    | nil => exact this rfl
    | cons => cases hs

end Demo

end Water
