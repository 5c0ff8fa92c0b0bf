import Verif.Spec.Proxy
import Verif.Props.Util
import Verif.Props.Text
/-
C144: whose address `RealIp` returns, behind any machines in between.
-/
namespace Water
open Spec

theorem canon_forwarded : canonKey b!"X-Forwarded-For" = b!"X-Forwarded-For" := by decide +kernel
theorem canon_real : canonKey b!"X-Real-IP" = b!"X-Real-Ip" := by decide +kernel

theorem first_joined {v e : Str} (h : FirstEntry v e) (vs : List Str) (ip : Str) : FirstEntry (join b!", " (v :: vs) ++ b!", " ++ ip) e := by
  refine ⟨h.1, .inr ?_⟩
  have hj : ∃ r, join b!", " (v :: vs) = v ++ r ∧ (r = [] ∨ ∃ r', r = b!", " ++ r') := by
    cases vs with
    | nil => exact ⟨[], by simp [join], .inl rfl⟩
    | cons w ws => exact ⟨b!", " ++ join b!", " (w :: ws), by simp [join], .inr ⟨_, rfl⟩⟩
  obtain ⟨r, e1, e2⟩ := hj
  rw [e1]
  rcases h.2 with h | ⟨q, h⟩
  · subst h
    rcases e2 with e2 | ⟨r', e2⟩
    · exact ⟨ip, by rw [e2]; simp⟩
    · exact ⟨r' ++ b!", " ++ ip, by rw [e2]; simp [List.append_assoc]⟩
  · exact ⟨q ++ r ++ b!", " ++ ip, by rw [h]; simp [List.append_assoc]⟩

theorem first_address {ip : Str} (h : 44 ∉ ip) : FirstEntry ip ip :=
  ⟨by rintro ⟨a, b, e⟩; apply h; rw [e]; simp, .inl rfl⟩

/-- the header at a place, and what is known there -/
def AgreesHere (a : Arrival) (k : Known) : Prop := SaidBy a.header k.real k.first ∧ a.peer = k.peer

theorem first_forwarded {h : Header} {real : Str} {first : Option Str} {ip : Str} (hs : SaidBy h real first) (hip : 44 ∉ ip) :
    FirstEntry (forwardedFor h ip) (first.getD ip) := by
  cases first with
  | none =>
    have h2 : ((h b!"X-Forwarded-For").getD []) = [] := hs.2
    unfold forwardedFor
    cases hx : h b!"X-Forwarded-For" with
    | none => exact first_address hip
    | some l =>
      rw [hx] at h2
      have : l = [] := h2
      subst this
      exact first_address hip
  | some e =>
    obtain ⟨v, vs, h2, h3⟩ := hs.2
    unfold forwardedFor
    rw [h2]
    exact first_joined h3 vs ip

theorem agrees_past {a : Arrival} {k : Known} (h : AgreesHere a k) (hk : Address k.peer) (m : Hop) : AgreesHere (passOn a m) (k.past m) := by
  obtain ⟨hs, hp⟩ := h
  have hne : canonKey b!"X-Real-IP" ≠ b!"X-Forwarded-For" := by rw [canon_real]; decide
  have hf := first_forwarded (ip := a.peer) hs (by rw [hp]; exact hk.2)
  rw [hp] at hf
  unfold passOn Known.past
  cases m.says with
  | nothing => exact ⟨hs, rfl⟩
  | list =>
    refine ⟨⟨?_, _, [], ?_, hf⟩, rfl⟩
    · rw [← hs.1]
      show Header.get (a.header.put _ _) _ = _
      rw [get_held, put_held, if_neg (by rw [canon_forwarded]; exact fun e => hne e.symm), ← get_held]
    · rw [← hp]
      show (a.header.put b!"X-Forwarded-For" (forwardedFor a.header a.peer)) b!"X-Forwarded-For" = _
      unfold Header.put
      rw [canon_forwarded, Map.set_same]
  | both =>
    refine ⟨⟨?_, _, [], ?_, hf⟩, rfl⟩
    · show Header.get ((a.header.put _ _).put _ _) _ = _
      rw [get_held, put_held, if_pos rfl, hp]; rfl
    · rw [← hp]
      show ((a.header.put b!"X-Forwarded-For" (forwardedFor a.header a.peer)).put b!"X-Real-IP" a.peer) b!"X-Forwarded-For" = _
      unfold Header.put
      rw [Map.set_other _ _ (fun e => hne e.symm), canon_forwarded, Map.set_same]

theorem agrees_arrives {a : Arrival} {k : Known} (h : AgreesHere a k) (hk : Address k.peer) (ms : List Hop) (hm : ∀ m ∈ ms, Address m.ip) :
    AgreesHere (ms.foldl passOn a) (ms.foldl Known.past k) := by
  induction ms generalizing a k with
  | nil => exact h
  | cons m ms ih =>
    refine ih (agrees_past h hk m) ?_ (fun x hx => hm x (by simp [hx]))
    have hp : (k.past m).peer = m.ip := by unfold Known.past; cases m.says <;> rfl
    rw [hp]
    exact hm m (by simp)

/-- C144, the exact answer: whatever machines are in between and whatever the client says, `RealIp` is what is taken from X-Real-IP, from
the first entry of X-Forwarded-For, or from the connection. -/
theorem C144_exact {client port : Str} {h : Header} {ms : List Hop} {real : Str} {first : Option Str} (hc : Address client)
    (hm : ∀ m ∈ ms, Address m.ip) (hs : SaidBy h real first) (hport : colon ∉ port) :
    requestRealIp (arrives client h ms).header (hostPort (arrives client h ms).peer port) =
      (ms.foldl Known.past { real := real, first := first, peer := client }).taken := by
  have hA : AgreesHere { header := h, peer := client } { real := real, first := first, peer := client } := ⟨hs, rfl⟩
  obtain ⟨⟨g1, g2⟩, g3⟩ := agrees_arrives hA hc ms hm
  unfold arrives
  generalize ms.foldl passOn { header := h, peer := client } = a at g1 g2 g3
  generalize ms.foldl Known.past { real := real, first := first, peer := client } = k at g1 g2 g3
  obtain ⟨c1, c2, c3, _⟩ := C52_realIp a.header (hostPort a.peer port)
  unfold Known.taken
  by_cases hr : k.real ≠ []
  · rw [if_pos hr, c1 (by rw [g1]; exact hr), g1]
  · rw [if_neg hr]
    have hr' : a.header.get b!"X-Real-IP" = [] := by rw [g1]; exact Classical.not_not.1 hr
    have hfe : FirstEntry (a.header.get b!"X-Forwarded-For") (k.first.getD []) := by
      cases hf : k.first with
      | none =>
        rw [hf] at g2
        have : a.header.get b!"X-Forwarded-For" = [] := by rw [get_held, canon_forwarded, g2]; rfl
        rw [this]
        exact first_address (by simp)
      | some e =>
        rw [hf] at g2
        obtain ⟨v, vs, g4, g5⟩ := g2
        have : a.header.get b!"X-Forwarded-For" = v := by rw [get_held, canon_forwarded, g4]; rfl
        rw [this]
        exact g5
    by_cases he : k.first.getD [] ≠ []
    · rw [if_pos he, c2 _ hr' hfe he]
    · rw [if_neg he]
      rw [Classical.not_not.1 he] at hfe
      obtain ⟨c4, _⟩ := c3 hr' hfe
      rw [g3] at c4 ⊢
      by_cases hcol : colon ∈ k.peer
      · rw [if_pos hcol]
        exact c4 (b!"[" ++ k.peer ++ b!"]") port (by unfold hostPort; rw [if_pos hcol]; simp [colon]) hport
      · rw [if_neg hcol]
        exact c4 k.peer port (by unfold hostPort; rw [if_neg hcol]; simp [colon]) hport

theorem past_keeps {ms : List Hop} (h : ∀ m ∈ ms, m.says ≠ .both) (k : Known) :
    (ms.foldl Known.past k).real = k.real ∧ (∀ e, k.first = some e → (ms.foldl Known.past k).first = some e) := by
  induction ms generalizing k with
  | nil => exact ⟨rfl, fun _ h => h⟩
  | cons m ms ih =>
    obtain ⟨i1, i2⟩ := ih (fun x hx => h x (by simp [hx])) (k.past m)
    have hm := h m (by simp)
    have : (k.past m).real = k.real ∧ (∀ e, k.first = some e → (k.past m).first = some e) := by
      unfold Known.past
      cases hs : m.says with
      | nothing => exact ⟨rfl, fun _ h => h⟩
      | list => exact ⟨rfl, fun e he => by simp [he]⟩
      | both => exact absurd hs hm
    refine ⟨by rw [List.foldl_cons, i1, this.1], fun e he => ?_⟩
    rw [List.foldl_cons]
    exact i2 e (this.2 e he)

/-- C144 (partial): if the first machine sets X-Real-IP and the others do not, `RealIp` is the address of the client, whatever it says. -/
theorem C144_named_partial {client port : Str} {h : Header} {m : Hop} {ms : List Hop} {real : Str} {first : Option Str} (hc : Address client)
    (hm : ∀ x ∈ m :: ms, Address x.ip) (hs : SaidBy h real first) (hport : colon ∉ port) (hb : m.says = .both) (hr : ∀ x ∈ ms, x.says ≠ .both) :
    requestRealIp (arrives client h (m :: ms)).header (hostPort (arrives client h (m :: ms)).peer port) = client := by
  rw [C144_exact hc hm hs hport, List.foldl_cons]
  have hk : (Known.past { real := real, first := first, peer := client } m).real = client := by unfold Known.past; rw [hb]
  unfold Known.taken
  rw [(past_keeps hr _).1, hk, if_pos hc.1]

/-- C144 (partial): if the client sends neither header, the first machine adds to the list and none sets X-Real-IP, `RealIp` is the address of
the client. -/
theorem C144_listed_partial {client port : Str} {h : Header} {m : Hop} {ms : List Hop} (hc : Address client)
    (hm : ∀ x ∈ m :: ms, Address x.ip) (hs : SaidBy h [] none) (hport : colon ∉ port) (hb : m.says = .list) (hr : ∀ x ∈ ms, x.says ≠ .both) :
    requestRealIp (arrives client h (m :: ms)).header (hostPort (arrives client h (m :: ms)).peer port) = client := by
  rw [C144_exact hc hm hs hport, List.foldl_cons]
  have hk : Known.past { real := [], first := none, peer := client } m = { real := [], first := some client, peer := m.ip } := by
    unfold Known.past; rw [hb]; rfl
  obtain ⟨h1, h2⟩ := past_keeps hr (Known.past { real := [], first := none, peer := client } m)
  rw [hk] at h1 h2 ⊢
  unfold Known.taken
  rw [h1, h2 client rfl]
  simp [hc.1]

/-- C144 (partial): without machines in between, for an address of version 4 and a client that sends neither header. -/
theorem C144_direct_partial {client port : Str} {h : Header} (hc : Address client) (h4 : colon ∉ client) (hs : SaidBy h [] none)
    (hport : colon ∉ port) : requestRealIp h (hostPort client port) = client := by
  have := C144_exact (ms := []) hc (by simp) hs hport
  refine this.trans ?_
  show Known.taken _ = _
  unfold Known.taken
  simp [h4]

/-- C144, the rest: unless a machine sets X-Real-IP, a client can have any text taken for its address. -/
theorem C144_forged {client port x : Str} {ms : List Hop} (hc : Address client) (hm : ∀ m ∈ ms, Address m.ip) (hport : colon ∉ port)
    (hr : ∀ m ∈ ms, m.says ≠ .both) (hx : x ≠ []) :
    ∃ h, requestRealIp (arrives client h ms).header (hostPort (arrives client h ms).peer port) = x := by
  refine ⟨Header.put Map.empty b!"X-Real-IP" x, ?_⟩
  have hs : SaidBy (Header.put Map.empty b!"X-Real-IP" x) x none := by
    refine ⟨by rw [get_held, put_held, if_pos rfl]; rfl, ?_⟩
    show ((Header.put _ _ _ _).getD []) = []
    unfold Header.put
    rw [canon_real, Map.set_other _ _ (by decide)]
    rfl
  rw [C144_exact hc hm hs hport]
  unfold Known.taken
  rw [(past_keeps hr _).1, if_pos hx]

/-- C144: if several machines set X-Real-IP, `RealIp` is the address from which the last of them got the request. -/
theorem C144_last {client port : Str} {h : Header} {ms ms' : List Hop} {m : Hop} {real : Str} {first : Option Str} (hc : Address client)
    (hm : ∀ x ∈ ms ++ m :: ms', Address x.ip) (hs : SaidBy h real first) (hport : colon ∉ port) (hb : m.says = .both)
    (hr : ∀ x ∈ ms', x.says ≠ .both) :
    requestRealIp (arrives client h (ms ++ m :: ms')).header (hostPort (arrives client h (ms ++ m :: ms')).peer port) =
      (ms.getLast?.map Hop.ip).getD client := by
  rw [C144_exact hc hm hs hport, List.foldl_append, List.foldl_cons]
  have hpeer : ∀ (ms : List Hop) (k : Known), (ms.foldl Known.past k).peer = (ms.getLast?.map Hop.ip).getD k.peer := by
    intro ms
    induction ms with
    | nil => intro k; rfl
    | cons y ys ih =>
      intro k
      rw [List.foldl_cons, ih]
      have : (k.past y).peer = y.ip := by unfold Known.past; cases y.says <;> rfl
      rw [this]
      cases ys with
      | nil => rfl
      | cons z zs => simp [List.getLast?_cons]
  have hp := hpeer ms { real := real, first := first, peer := client }
  generalize ms.foldl Known.past { real := real, first := first, peer := client } = k at hp
  have hk : (k.past m).real = k.peer := by unfold Known.past; rw [hb]
  unfold Known.taken
  rw [(past_keeps hr _).1, hk, hp, if_pos]
  cases hl : ms.getLast? with
  | none => exact hc.1
  | some y => exact (hm y (by simp [List.mem_of_getLast? hl])).1

/-- C144 as stated, for one machine in between or none. -/
def C144_claim (says : Option Says) : Prop :=
  ∀ (client proxy port : Str) (h : Header), Address client → Address proxy → colon ∉ port →
    let ms := (says.map (fun s => Hop.mk s proxy)).toList
    requestRealIp (arrives client h ms).header (hostPort (arrives client h ms).peer port) = client

namespace Demo

/-- Beside the theorems: a client behind two machines says that it is the server itself. With the first setting X-Real-IP it is not believed. -/
theorem C144_demo :
    requestRealIp (arrives b!"203.0.113.9" (Header.put Map.empty b!"x-forwarded-for" b!"127.0.0.1") [⟨.both, b!"10.0.0.1"⟩, ⟨.list, b!"10.0.0.2"⟩]).header
      (hostPort b!"10.0.0.2" b!"4711") = b!"203.0.113.9" :=
  C144_named_partial (ms := [⟨.list, b!"10.0.0.2"⟩]) (real := []) (first := some b!"127.0.0.1") ⟨by decide, by decide⟩
    (by intro x hx; simp only [List.mem_cons, List.not_mem_nil, or_false] at hx; rcases hx with rfl | rfl <;> exact ⟨by decide, by decide⟩)
    ⟨by decide +kernel, b!"127.0.0.1", [], by decide +kernel, first_address (by decide)⟩ (by decide) rfl (by decide)

/-- with machines that only add to the list, it is -/
example : (arrives b!"203.0.113.9" (Header.put Map.empty b!"x-forwarded-for" b!"127.0.0.1") [⟨.list, b!"10.0.0.1"⟩, ⟨.list, b!"10.0.0.2"⟩]).header.get b!"X-Forwarded-For" =
      b!"127.0.0.1, 203.0.113.9, 10.0.0.1" ∧
    requestRealIp (arrives b!"203.0.113.9" (Header.put Map.empty b!"x-forwarded-for" b!"127.0.0.1") [⟨.list, b!"10.0.0.1"⟩, ⟨.list, b!"10.0.0.2"⟩]).header
      (hostPort b!"10.0.0.2" b!"4711") = b!"127.0.0.1" := by decide +kernel

end Demo

/-- C144, as stated, is false without a machine that sets X-Real-IP: the client chooses. -/
theorem C144_refuted : ¬ C144_claim none ∧ ¬ C144_claim (some .nothing) ∧ ¬ C144_claim (some .list) := by
  refine ⟨fun h => ?_, fun h => ?_, fun h => ?_⟩ <;>
  · have := h b!"203.0.113.9" b!"10.0.0.1" b!"4711" (Header.put Map.empty b!"X-Forwarded-For" b!"127.0.0.1") ⟨by decide, by decide⟩ ⟨by decide, by decide⟩
      (by decide)
    exact absurd this (by decide +kernel)

/-- It also fails, without any lie, for a client that connects directly from an address of version 6: it comes with brackets. -/
theorem C144_refuted_six : requestRealIp Map.empty (hostPort b!"2001:db8::9" b!"4711") = b!"[2001:db8::9]" := by decide +kernel

/-- And if two machines set X-Real-IP: then it is the address of the first machine. -/
theorem C144_refuted_twice : requestRealIp (arrives b!"203.0.113.9" Map.empty [⟨.both, b!"10.0.0.1"⟩, ⟨.both, b!"10.0.0.2"⟩]).header
    (hostPort b!"10.0.0.2" b!"4711") = b!"10.0.0.1" := by decide +kernel

end Water
