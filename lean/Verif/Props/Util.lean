import Verif.Lemmas.Text
import Verif.Lemmas.Middleware
/-
C51, C52, C53, C56: Content-Disposition, client address, content type, listen address.
-/
namespace Water
open Spec

/-! ### C51 -/

theorem count_eq_zero_safe {s : Str} {c : UInt8} (h : ∀ x ∈ s, x ≠ c) : s.count c = 0 :=
  List.count_eq_zero.2 (fun hc => h c hc rfl)

/-- C51: the exact text: the type, and unless the name is empty, the escaped name in both forms. -/
theorem C51_text (inline : List Bool) (name : Str) :
    ∃ e, Percent segmentBytes name e ∧
      dispositionFor inline name = (if inline.head? = some true then b!"inline" else b!"attachment") ++
        if name = [] then [] else b!"; filename=\"" ++ e ++ b!"\"; filename*=UTF-8''" ++ e := by
  refine ⟨_, pathEscape_percent name, ?_⟩
  unfold dispositionFor contentDisposition
  by_cases h : inline.head? = some true
  · simp only [if_pos h]
    by_cases hn : name = []
    · simp [hn]
    · simp [hn]
  · simp only [if_neg h]
    by_cases hn : name = []
    · simp [hn]
    · simp [hn]

/-- C51: for every file name, the value of Content-Disposition is printable ASCII; the name contributes no space, no
double quote and no semicolon, so the only quotes are the two that delimit the name and the only spaces and semicolons are
those of the two separators; and the name is what the text between the quotes, and what stands after
`filename*=UTF-8''`, decode to. -/
theorem C51_disposition (inline : List Bool) (name : Str) :
    (∀ c ∈ dispositionFor inline name, 32 ≤ c ∧ c ≤ 126) ∧
    (name ≠ [] →
      (dispositionFor inline name).count 34 = 2 ∧ (dispositionFor inline name).count 32 = 2 ∧
      (dispositionFor inline name).count 59 = 2 ∧
      unescape (quoted (dispositionFor inline name)) = some name ∧
      ∃ pre enc, dispositionFor inline name = pre ++ b!"; filename*=UTF-8''" ++ enc ∧ unescape enc = some name) ∧
    (name = [] → dispositionFor inline name = if inline.head? = some true then b!"inline" else b!"attachment") := by
  have hs := pathEscape_safe (s := name)
  have h34 : (pathEscape name).count 34 = 0 := count_eq_zero_safe (fun x hx => (hs x hx).2.2.1)
  have h59 : (pathEscape name).count 59 = 0 := count_eq_zero_safe (fun x hx => (hs x hx).2.2.2.1)
  have h32 : (pathEscape name).count 32 = 0 :=
    count_eq_zero_safe (fun x hx h => by have := (hs x hx).1; rw [h] at this; exact absurd this (by decide))
  have hp : ∀ c ∈ pathEscape name, (32 : UInt8) ≤ c ∧ c ≤ 126 := by
    intro c hc
    obtain ⟨h1, h2, _⟩ := hs c hc
    exact ⟨UInt8.le_trans (by decide) h1, h2⟩
  have ht : ∃ t : Str, (if inline.head? = some true then b!"inline" else b!"attachment") = t ∧
      (t = b!"inline" ∨ t = b!"attachment") := by
    by_cases h : inline.head? = some true
    · rw [if_pos h]; exact ⟨_, rfl, Or.inl rfl⟩
    · rw [if_neg h]; exact ⟨_, rfl, Or.inr rfl⟩
  obtain ⟨t, htt, ht⟩ := ht
  unfold dispositionFor contentDisposition
  rw [htt]
  have hne : t ≠ [] := by rcases ht with rfl | rfl <;> decide
  have htp : ∀ c ∈ t, (32 : UInt8) ≤ c ∧ c ≤ 126 := by rcases ht with rfl | rfl <;> decide
  simp only [if_neg hne]
  refine ⟨?_, ?_, ?_⟩
  · split
    · exact htp
    · intro c hc
      simp only [List.mem_append] at hc
      rcases hc with (((hc | hc) | hc) | hc) | hc
      · exact htp c hc
      · revert c; decide
      · exact hp c hc
      · revert c; decide
      · exact hp c hc
  · intro hn
    rw [if_neg hn]
    refine ⟨?_, ?_, ?_, ?_, ?_⟩
    · simp only [List.count_append, h34]
      rcases ht with rfl | rfl <;> decide
    · simp only [List.count_append, h32]
      rcases ht with rfl | rfl <;> decide
    · simp only [List.count_append, h59]
      rcases ht with rfl | rfl <;> decide
    · have hq : quoted (t ++ b!"; filename=\"" ++ pathEscape name ++ b!"\"; filename*=UTF-8''" ++ pathEscape name) =
          pathEscape name := by
        unfold quoted
        have h1 : (t ++ b!"; filename=\"" ++ pathEscape name ++ b!"\"; filename*=UTF-8''" ++ pathEscape name) =
            (t ++ b!"; filename=") ++ (34 :: (pathEscape name ++ (34 :: (b!"; filename*=UTF-8''" ++ pathEscape name)))) := by
          simp
        rw [h1, List.dropWhile_append_of_pos (by
          intro c hc
          rcases ht with rfl | rfl
          · revert c; decide
          · revert c; decide)]
        rw [List.dropWhile_cons_of_neg (by decide), List.drop_one, List.tail_cons,
          List.takeWhile_append_of_pos (fun c hc => by simpa using (hs c hc).2.2.1),
          List.takeWhile_cons_of_neg (by decide), List.append_nil]
      rw [hq]
      exact unescape_pathEscape name
    · refine ⟨t ++ b!"; filename=\"" ++ pathEscape name ++ [34], pathEscape name, by simp, unescape_pathEscape name⟩
  · intro hn
    rw [if_pos hn]

/-- C51: different names give different values. -/
theorem C51_injective {inline : List Bool} {n m : Str} (h : dispositionFor inline n = dispositionFor inline m) : n = m := by
  by_cases hn : n = [] <;> by_cases hm : m = []
  · rw [hn, hm]
  · have h1 := ((C51_disposition inline m).2.1 hm).1
    rw [← h, (C51_disposition inline n).2.2 hn] at h1
    split at h1 <;> exact absurd h1 (by decide)
  · have h1 := ((C51_disposition inline n).2.1 hn).1
    rw [h, (C51_disposition inline m).2.2 hm] at h1
    split at h1 <;> exact absurd h1 (by decide)
  · have h1 := ((C51_disposition inline n).2.1 hn).2.2.2.1
    rw [h, ((C51_disposition inline m).2.1 hm).2.2.2.1] at h1
    exact (Option.some.inj h1).symm

/-- C51: the header that `Attachment` leaves for `http.ServeContent` has that value and is otherwise unchanged. -/
theorem C51_attachment {ω : Type} (o : Oracle) (req : Req) (nx : St ω → Out × St ω) (i : Nat) (name : Str) (inline : List Bool)
    (serve : Prog ω) (s : St ω) :
    ∃ h : Header, exec o req nx i (.attachment name inline serve) s = exec o req nx i serve (withHeader s h) ∧
      h b!"Content-Disposition" = some [dispositionFor inline name] ∧
      ∀ k, k ≠ b!"Content-Disposition" → h k = s.rw.header k := by
  refine ⟨s.rw.header.put b!"Content-Disposition" (dispositionFor inline name), rfl, ?_, ?_⟩
  · rw [put_canon (by decide)]; simp [Map.set]
  · intro k hk
    rw [put_canon (by decide)]; simp [Map.set, hk]

example : dispositionFor [] b!"a \"b;.txt" =
    b!"attachment; filename=\"a%20%22b%3B.txt\"; filename*=UTF-8''a%20%22b%3B.txt" := by decide +kernel

/-! ### C52 -/

/-- C52: `Proxy` is the X-Forwarded-For list: joining it gives back the header, and no entry can be split further. -/
theorem C52_proxy (h : Header) :
    join b!", " (requestProxy h) = h.get b!"X-Forwarded-For" ∧
    (∀ e ∈ requestProxy h, ¬ ∃ a b, e = a ++ b!", " ++ b) ∧
    (requestProxy h = [] ↔ h.get b!"X-Forwarded-For" = []) := by
  unfold requestProxy
  dsimp only
  split
  · rename_i hne
    obtain ⟨h1, h2⟩ := splitStrF_spec (sep := b!", ") (by decide) _ (h.get b!"X-Forwarded-For") (Nat.le_refl _)
    exact ⟨h1, h2, ⟨fun h' => absurd h' (splitStrF_ne _ _ _), fun h' => absurd h' hne⟩⟩
  · rename_i hne
    have : h.get b!"X-Forwarded-For" = [] := Classical.not_not.1 hne
    rw [this]
    exact ⟨rfl, by simp, by simp⟩

/-- C52: the three cases of `RealIp`: the X-Real-IP header; else the first X-Forwarded-For entry; else the remote
address up to its last colon. The case distinction is complete. -/
theorem C52_realIp (h : Header) (remote : Str) :
    (h.get b!"X-Real-IP" ≠ [] → requestRealIp h remote = h.get b!"X-Real-IP") ∧
    (∀ e, h.get b!"X-Real-IP" = [] → FirstEntry (h.get b!"X-Forwarded-For") e → e ≠ [] → requestRealIp h remote = e) ∧
    (h.get b!"X-Real-IP" = [] → FirstEntry (h.get b!"X-Forwarded-For") [] →
      (∀ host port, remote = host ++ colon :: port → colon ∉ port → requestRealIp h remote = host) ∧
      (colon ∉ remote → requestRealIp h remote = remote)) ∧
    ∃ e, FirstEntry (h.get b!"X-Forwarded-For") e := by
  have hfirst : (requestProxy h = [] ∧ FirstEntry (h.get b!"X-Forwarded-For") []) ∨
      ∃ x xs, requestProxy h = x :: xs ∧ FirstEntry (h.get b!"X-Forwarded-For") x := by
    cases hp : requestProxy h with
    | nil =>
      left
      refine ⟨rfl, ?_⟩
      rw [(C52_proxy h).2.2.1 hp]
      refine ⟨?_, Or.inl rfl⟩
      rintro ⟨a, b, hab⟩
      have := congrArg List.length hab
      simp at this
    | cons x xs =>
      right
      refine ⟨x, xs, rfl, ?_⟩
      unfold requestProxy at hp
      dsimp only at hp
      split at hp
      · exact splitStr_first hp
      · cases hp
  refine ⟨?_, ?_, ?_, ?_⟩
  · intro hr
    unfold requestRealIp
    dsimp only
    rw [if_neg hr]
  · intro e hr he hne
    unfold requestRealIp
    dsimp only
    rw [if_pos hr]
    rcases hfirst with ⟨_, h2⟩ | ⟨x, xs, h1, h2⟩
    · exact absurd (firstEntry_unique he h2) hne
    · have := firstEntry_unique he h2
      subst this
      rw [h1]
      dsimp only
      rw [if_pos hne]
  · intro hr he
    have key : requestRealIp h remote = (match lastIndexByte remote colon with
        | some i => remote.take i
        | none => remote) := by
      unfold requestRealIp
      dsimp only
      rw [if_pos hr]
      rcases hfirst with ⟨h1, _⟩ | ⟨x, xs, h1, h2⟩
      · rw [h1]; rfl
      · have := firstEntry_unique he h2
        subst this
        rw [h1]
        dsimp only
        rw [if_neg (fun h => h rfl)]; rfl
    refine ⟨?_, ?_⟩
    · rintro host port rfl hc
      rw [key, lastIndexByte_cut hc]
      simp
    · intro hc
      rw [key, lastIndexByte_none hc]
  · rcases hfirst with ⟨_, h⟩ | ⟨x, _, _, h⟩
    · exact ⟨_, h⟩
    · exact ⟨_, h⟩

/-- headers for the examples -/
def Demo.ipHeader (k v : Str) : Header := Map.set Map.empty k [v]

example : requestRealIp (Demo.ipHeader b!"X-Forwarded-For" b!"10.0.0.1, 10.0.0.2") b!"1.2.3.4:80" = b!"10.0.0.1" ∧
    requestProxy (Demo.ipHeader b!"X-Forwarded-For" b!"10.0.0.1, 10.0.0.2") = [b!"10.0.0.1", b!"10.0.0.2"] ∧
    requestRealIp Map.empty b!"[::1]:80" = b!"[::1]" := by decide +kernel

/-! ### C53 -/

/-- C53: the content type is the longest beginning of the header with neither space nor semicolon. -/
theorem C53_content_type (h : Header) :
    Longest (fun p => 32 ∉ p ∧ 59 ∉ p) (h.get b!"Content-Type") (contentTypeOf h) := by
  unfold contentTypeOf
  rw [filterFlags_eq]
  exact takeWhile_longest _

/-- C53: that determines it. -/
theorem C53_unique {P : Str → Prop} {s p q : Str} (hp : Longest P s p) (hq : Longest P s q) : p = q :=
  (hq.2.2 p hp.1 hp.2.1).eq_of_length (Nat.le_antisymm (hq.2.2 p hp.1 hp.2.1).length_le (hp.2.2 q hq.1 hq.2.1).length_le)

/-- C53: splitting a well-formed header gives its media type back. -/
theorem C53_media {h : Header} {m rest : Str} {c : UInt8} (hm : 32 ∉ m ∧ 59 ∉ m) (hc : c = 32 ∨ c = 59)
    (hh : h.get b!"Content-Type" = m ++ c :: rest) : contentTypeOf h = m := by
  refine C53_unique (C53_content_type h) ⟨⟨_, hh.symm⟩, hm, ?_⟩
  rintro q ⟨t, hq⟩ ⟨h1, h2⟩
  rw [hh] at hq
  have hpre : q <+: m ++ c :: rest := ⟨t, hq⟩
  have hm' : m <+: m ++ c :: rest := ⟨_, rfl⟩
  rcases List.prefix_or_prefix_of_prefix hpre hm' with h | h
  · exact h
  · obtain ⟨u, hu⟩ := h
    cases u with
    | nil => rw [List.append_nil] at hu; rw [hu]; exact List.prefix_rfl
    | cons x xs =>
      rw [← hu] at hq
      simp only [List.append_assoc, List.cons_append, List.append_cancel_left_eq, List.cons.injEq] at hq
      exfalso
      rcases hc with rfl | rfl
      · apply h1; rw [← hu, hq.1]; simp
      · apply h2; rw [← hu, hq.1]; simp

example : contentTypeOf (Demo.ipHeader b!"Content-Type" b!"text/html; charset=utf-8") = b!"text/html" := by decide +kernel

/-! ### C56 -/

/-- C56: the address `Run` listens on. -/
theorem C56_address (addr : List Str) :
    (addr = [] → resolveAddress addr = some b!":8080") ∧
    (∀ a, addr = [a] → resolveAddress addr = some a) ∧
    (2 ≤ addr.length → resolveAddress addr = none) := by
  match addr with
  | [] => exact ⟨fun _ => rfl, by simp, by simp⟩
  | [a] => exact ⟨by simp, by simp [resolveAddress], by simp⟩
  | _ :: _ :: _ => exact ⟨by simp, by simp, fun _ => rfl⟩

end Water
