import Verif.Lemmas.Vary
/-
C148: a cache between browsers and the server does not change what a page may read.
-/
namespace Water
open Spec Demo
variable {ω : Type}

theorem padded_whole {e : Str} (h : (∀ c ∈ e.head?, c ≠ 32 ∧ c ≠ 9) ∧ (∀ c ∈ e.getLast?, c ≠ 32 ∧ c ≠ 9)) : Padded e e :=
  ⟨[], [], by simp, by simp, h⟩

theorem varyNames_line {h : Header} {n : Str} (hm : n ∈ (h b!"Vary").getD []) (hc : (44 : UInt8) ∉ n)
    (hp : (∀ c ∈ n.head?, c ≠ 32 ∧ c ≠ 9) ∧ (∀ c ∈ n.getLast?, c ≠ 32 ∧ c ≠ 9)) : VaryNames h n :=
  ⟨n, hm, [n], n, n, by simpa using hc, rfl, by simp, padded_whole hp, rfl⟩

theorem get_same {q q' : Req} {n : Str} (h : q'.header (canonKey n) = q.header (canonKey n)) : q'.header.get n = q.header.get n := by
  unfold Header.get
  rw [h]

/-- the handlers behind the first one -/
theorem later_in {s : St ω} {p : Prog ω} {rest : List (Prog ω)} (hi : s.ctx.index = 0) (hh : s.ctx.handlers = p :: rest) :
    ∀ (i : Nat) q, s.ctx.index < i → s.ctx.handlers[i]? = some q → q ∈ rest := by
  intro i q hi' hq
  rw [hi] at hi'
  rw [hh] at hq
  cases i with
  | zero => omega
  | succ i => exact List.mem_of_getElem? (by simpa using hq)

/-- **C148 (names).** A request is answered by a chain that begins with CORS and whose other handlers take nothing away from Vary. Everything
that is sent names Origin in Vary, and the answer to OPTIONS names the two other fields that CORS looks at. -/
theorem C148_names {rx : Regex} {o : Oracle} {e : Engine (Prog ω)} {q : Req} (hr : Routed q) {cfg : CORSConfig} {rest : List (Prog ω)}
    (hch : answering rx e q = cors cfg :: rest) (hrest : ∀ p ∈ rest, LeavesVary p) (c : Ctx ω) (body : Option Str) (w : ω) :
    ∀ b code h, .status b code h ∈ (serve rx o e c q Writer.new body w).rw.log → VaryNames h b!"Origin" ∧
      (q.method = b!"OPTIONS" → VaryNames h b!"Access-Control-Request-Method" ∧ VaryNames h b!"Access-Control-Request-Headers") := by
  obtain ⟨s, ⟨hi, hw, -⟩, hh, hrw, hs⟩ := serve_answering hr hch c Writer.new body w (o := o)
  have hcors : s.ctx.handlers[s.ctx.index]? = some (cors cfg) := by rw [hi, hh]; rfl
  have hlog : s.rw.log = [] := by rw [hrw]; rfl
  rw [hs]
  intro b code h hm
  refine ⟨?_, fun hopt => ⟨?_, ?_⟩⟩
  · refine varyNames_line (cors_has (by decide) o q s cfg hcors hw hlog (fun i p hi' hp => hrest p (later_in hi hh i p hi' hp)) ?_ ?_ b code h hm)
      (by decide) (by decide)
    · intro _ h' hh'; rw [hh'.vary]; simp
    · intro _ h' hh'; rw [hh'.vary]; simp
  · refine varyNames_line (cors_has (by decide) o q s cfg hcors hw hlog (fun i p hi' hp => hrest p (later_in hi hh i p hi' hp)) ?_ ?_ b code h hm)
      (by decide) (by decide)
    · intro hn; exact absurd hopt hn
    · intro _ h' hh'; rw [hh'.vary]; simp
  · refine varyNames_line (cors_has (by decide) o q s cfg hcors hw hlog (fun i p hi' hp => hrest p (later_in hi hh i p hi' hp)) ?_ ?_ b code h hm)
      (by decide) (by decide)
    · intro hn; exact absurd hopt hn
    · intro _ h' hh'; rw [hh'.vary]; simp

/-- **C148.** A cache has the response to the request `q` and may answer with it the request `q'` of a page: the browser lets the page read
it exactly if it would let it read the answer of the server itself (`C122_read`). -/
theorem C148_cached {rx : Regex} {o : Oracle} {e : Engine (Prog ω)} {q : Req} (hr : Routed q) {cfg : CORSConfig} {rest : List (Prog ω)}
    (hch : answering rx e q = cors cfg :: rest) (hrest : ∀ p ∈ rest, LeavesCors p ∧ LeavesVary p) (c : Ctx ω) (body : Option Str) (w : ω) :
    ∀ b code h, .status b code h ∈ (serve rx o e c q Writer.new body w).rw.log → ∀ q', MayReuse h q q' → ∀ origin, IsOrigin origin →
      q'.header.get b!"Origin" = origin → ∀ cred, CorsCheck origin cred h ↔ Reads cfg origin cred := by
  intro b code h hm q' hu origin ho hor cred
  have hv := (C148_names hr hch (fun p hp => (hrest p hp).2) c body w b code h hm).1
  refine C122_read hr hch (fun p hp => (hrest p hp).1) ho ?_ cred c body w b code h hm
  rw [← get_same (hu.fields _ hv), hor]

/-- **C148 (ask).** The same of the request by which a browser asks first: with an answer from the cache it goes on exactly if it would with
the answer of the server (`C122_ask`). -/
theorem C148_asked {rx : Regex} {o : Oracle} (h204 : o.bad 204 = false) {e : Engine (Prog ω)} {cfg : CORSConfig} (hcfg : CleanConfig cfg)
    {q : Req} (hr : Routed q) {rest : List (Prog ω)} (hch : answering rx e q = cors cfg :: rest) (c : Ctx ω) (body : Option Str) (w : ω)
    (hrest : ∀ p ∈ rest, LeavesVary p) (hopt : q.method = b!"OPTIONS") :
    ∃ h, (serve rx o e c q Writer.new body w).rw.log = [.status true 204 h] ∧
      ∀ q', MayReuse h q q' → ∀ f : Fetch, f.Ok → f.Preflight q' → (f.Permitted 204 h ↔ Reads cfg f.origin f.cred ∧ MaySend cfg f) := by
  obtain ⟨s, ⟨hi, hw, -⟩, hh, hrw, hs⟩ := serve_answering hr hch c Writer.new body w (o := o)
  have hcors : s.ctx.handlers[s.ctx.index]? = some (cors cfg) := by rw [hi, hh]; rfl
  obtain ⟨h, h1, -, h2, -⟩ := C45_preflight o q s cfg hopt hcors hw h204
  have hlog : (serve rx o e c q Writer.new body w).rw.log = [.status true 204 h] := by
    rw [hs, h2, hrw]
    rfl
  refine ⟨h, hlog, fun q' hu f hf hp => ?_⟩
  obtain ⟨n1, n2⟩ := C148_names hr hch hrest c body w true 204 h (by rw [hlog]; simp)
  obtain ⟨n2, n3⟩ := n2 hopt
  have hq : f.Preflight q := ⟨hopt, (get_same (hu.fields _ n1)).symm.trans hp.origin, (get_same (hu.fields _ n2)).symm.trans hp.wanted,
    (get_same (hu.fields _ n3)).symm.trans hp.names⟩
  exact permitted_iff hcfg hf hq h1 (by rw [hrw]; rfl) (by rw [hrw]; rfl)

/-- **C148 (safe).** Whatever response a cache gives to whatever page, and whatever the handlers do to Vary: the browser does not let the page
read it if the configuration does not. -/
theorem C148_safe {rx : Regex} {o : Oracle} {e : Engine (Prog ω)} {q : Req} (hr : Routed q) {cfg : CORSConfig} {rest : List (Prog ω)}
    (hch : answering rx e q = cors cfg :: rest) (hrest : ∀ p ∈ rest, LeavesCors p) (c : Ctx ω) (body : Option Str) (w : ω) :
    ∀ b code h, .status b code h ∈ (serve rx o e c q Writer.new body w).rw.log → ∀ origin, IsOrigin origin → ∀ cred,
      CorsCheck origin cred h → MayRead cfg origin cred := by
  obtain ⟨s, ⟨hi, hw, -⟩, hh, hrw, hs⟩ := serve_answering hr hch c Writer.new body w (o := o)
  have hcors : s.ctx.handlers[s.ctx.index]? = some (cors cfg) := by rw [hi, hh]; rfl
  have hlog : s.rw.log = [] := by rw [hrw]; rfl
  have hnone : s.rw.header b!"Access-Control-Allow-Credentials" = none := by rw [hrw]; rfl
  rw [hs]
  intro b code h hm origin ho cred hc
  obtain ⟨v, hv1, hv2⟩ := C44_sent o q s cfg hcors hlog (fun i p hi' hp => (hrest p (later_in hi hh i p hi' hp)).1) b code h hm
  have hcr : h b!"Access-Control-Allow-Credentials" = if cfg.allowCredentials then some [b!"true"] else none := by
    refine cors_key (by decide) o q s cfg hcors hw hlog (fun i p hi' hp => (hrest p (later_in hi hh i p hi' hp)).2) ?_ ?_ b code h hm
    · intro _ h' hh'; rw [hh'.credentials, hnone]
    · intro _ h' hh'; rw [hh'.credentials, hnone]
  obtain ⟨h1, h2, -⟩ := C44_value hv2
  obtain ⟨ne, ns⟩ := isOrigin_ne ho
  obtain ⟨v', hf, hcase⟩ := hc
  rw [fieldOf_one hv1] at hf
  cases hf
  unfold MayRead
  rcases hcase with ⟨rfl, rfl⟩ | ⟨rfl, hcred⟩
  · exact .inr (h1 rfl)
  · have hin := (h2 ns ne).2
    cases cred with
    | false => exact .inl hin
    | true =>
      refine ⟨?_, hin⟩
      have := hcred rfl
      cases hb : cfg.allowCredentials with
      | true => rfl
      | false =>
        rw [hb] at hcr
        rw [fieldOf_none (by simpa using hcr)] at this
        cases this

/-! ### cases -/

namespace Demo

/-- a handler that adds to Vary -/
def variesH : Prog Unit := .addHeader b!"Vary" b!"Accept-Language" writeH

/-- a handler that deletes Vary -/
def dropsVaryH : Prog Unit := .do (.header (fun h => (fun k => if k = b!"Vary" then none else h k, .unit))) writeH

/-- CORS given with `Before`, and the handler -/
def varyOps (p : Prog Unit) : List (Op (Prog Unit)) := [.newRouter, .before 0 [.handler (cors shopCfg)], .handle 0 b!"PUT" b!"/cart" [.handler p]]

theorem add_grows {key k v : Str} : Grows key (.header (fun h => (h.add k v, .unit)) : Call Unit) := by
  intro h x hx
  show x ∈ (Map.set h (canonKey k) _ key).getD []
  by_cases e : key = canonKey k
  · subst e
    rw [Map.set_same]
    exact List.mem_append_left _ hx
  · rw [Map.set_other _ _ e]
    exact hx

theorem add_keeps {key k v : Str} (hk : key ≠ canonKey k) : Keeps key (.header (fun h => (h.add k v, .unit)) : Call Unit) :=
  fun _ => Map.set_other _ _ hk

theorem leaves_varies : LeavesCors variesH ∧ LeavesVary variesH :=
  ⟨⟨⟨add_keeps (by decide), fun _ => ⟨trivial, fun _ => trivial⟩⟩, ⟨add_keeps (by decide), fun _ => ⟨trivial, fun _ => trivial⟩⟩⟩,
    ⟨add_grows, fun _ => ⟨trivial, fun _ => trivial⟩⟩⟩

/-- what a handler of the application is -/
theorem vary_given {q p : Prog Unit} {y : HVal (Prog Unit)} (hy : payload y = some p)
    (h : y ∈ ([] : List (HVal (Prog Unit))) ∨ GivenTo (varyOps q) shopOpts y) : p = q ∨ p = .notFound .ret := by
  rcases h with h | ⟨g, h⟩ | ⟨i, h⟩ | ⟨hs, h1, h⟩
  · cases h
  · simp [usesOf, usesBy, varyOps] at h
  · match i with
    | 0 => cases h
    | 1 =>
      rw [List.mem_singleton.1 h] at hy
      cases hy
      exact .inl rfl
    | i + 2 => cases h
  · simp [noFoundGiven, shopOpts] at h1
    subst h1
    simp at h
    subst h
    cases hy
    exact .inr rfl

end Demo

/-- the fields that responses name -/
example :
    cartHeader (varyOps variesH) shopOpts (cartReq (putJson b!"https://a.example" true)) b!"Vary" =
      some ([200], [some [b!"Origin", b!"Accept-Language"]]) ∧
    cartHeader (varyOps variesH) shopOpts (cartPre (putJson b!"https://a.example" true)) b!"Vary" =
      some ([204], [some [b!"Origin", b!"Access-Control-Request-Method", b!"Access-Control-Request-Headers"]]) ∧
    cartHeader (varyOps dropsVaryH) shopOpts (cartReq (putJson b!"https://a.example" true)) b!"Vary" = some ([200], [none]) := by
  refine ⟨?_, ?_, ?_⟩ <;> decide +kernel

/-- the hypotheses of `C148_cached`, and what it says: a page of b.example gets nothing from the cache that it may not read, and its own
response again -/
theorem Demo.C148_demo : ∃ e, app rx (varyOps variesH) 0 shopOpts = .ok e ∧
    ∀ b code h, .status b code h ∈ (serve rx chainO e Ctx.new (cartReq (putJson b!"https://b.example" true)) Writer.new none ()).rw.log →
      MayReuse h (cartReq (putJson b!"https://b.example" true)) (cartReq (putJson b!"https://b.example" true)) ∧
      CorsCheck b!"https://b.example" true h ∧ ¬ MayReuse h (cartReq (putJson b!"https://b.example" true)) (cartReq (putJson b!"https://a.example" true)) := by
  obtain ⟨e, he⟩ := app_exists (ops := varyOps variesH) (opts := shopOpts) (req := cartPre (putJson b!"https://a.example" true)) (k := 1)
    (by decide +kernel)
  refine ⟨e, he, fun b code h hm => ?_⟩
  obtain ⟨rest, h1, h2⟩ := C122_first he (x := .handler (cors shopCfg)) (more := []) rfl rfl (given := [.handler (.notFound .ret)]) rfl
    (cartReq (putJson b!"https://b.example" true))
  have hrest : ∀ p ∈ rest, LeavesCors p ∧ LeavesVary p := by
    intro p hp
    obtain ⟨y, hy, hg⟩ := h2 p hp
    rcases vary_given hy hg with rfl | rfl
    · exact leaves_varies
    · exact ⟨leaves_notFound, ⟨trivial, fun _ => trivial⟩⟩
  have hself : MayReuse h (cartReq (putJson b!"https://b.example" true)) (cartReq (putJson b!"https://b.example" true)) := ⟨rfl, ⟨rfl, rfl⟩, fun _ _ => rfl⟩
  refine ⟨hself, ?_, fun hu => ?_⟩
  · refine (C148_cached cartReq_routed h1 hrest Ctx.new none () b code h hm _ hself b!"https://b.example" (.inr ⟨b!"https", b!"b.example", rfl⟩)
      (by decide +kernel) true).2 ?_
    exact ⟨rfl, [b!"https://a.example"], [], rfl, by decide⟩
  · have hv := (C148_names cartReq_routed h1 (fun p hp => (hrest p hp).2) Ctx.new none () b code h hm).1
    exact absurd (hu.fields _ hv) (by decide +kernel)

/-- the header `k` of what is sent -/
theorem cart_header {ops : List (Op (Prog Unit))} {opts : List (Opt (Prog Unit))} {e : Engine (Prog Unit)} (he : app rx ops 0 opts = .ok e)
    {req : Req} {k : Str} {x : Option (List Str)} {c : Int} (h : cartHeader ops opts req k = some ([c], [x])) {b : Bool} {code : Int} {hd : Header}
    (hm : .status b code hd ∈ (serve rx chainO e Ctx.new req Writer.new none ()).rw.log) : hd k = x := by
  unfold cartHeader at h
  rw [cartLog_ok he] at h
  simp only [Option.map_some, Option.some.injEq, Prod.mk.injEq] at h
  have hin : ∀ l : List WEvent, .status b code hd ∈ l → hd k ∈ sentHeader k l := by
    intro l
    induction l with
    | nil => intro h; cases h
    | cons y l ih =>
      intro h
      rcases List.mem_cons.1 h with rfl | h2
      · exact List.mem_cons_self
      · cases y with
        | status _ _ _ => exact List.mem_cons_of_mem _ (ih h2)
        | body _ => exact ih h2
  have := hin _ hm
  rw [h.2] at this
  exact List.mem_singleton.1 this

/-- Why nothing may be taken away from Vary: behind a handler that deletes it, a cache may answer a page of b.example with the response to
a page of a.example; the browser does not let it read that, though it is configured. -/
theorem C148_taken : ∃ e, app rx (varyOps dropsVaryH) 0 shopOpts = .ok e ∧
    ∃ b h, .status b 200 h ∈ (serve rx chainO e Ctx.new (cartReq (putJson b!"https://a.example" true)) Writer.new none ()).rw.log ∧
      MayReuse h (cartReq (putJson b!"https://a.example" true)) (cartReq (putJson b!"https://b.example" true)) ∧
      Reads shopCfg b!"https://b.example" true ∧ ¬ CorsCheck b!"https://b.example" true h := by
  obtain ⟨e, he⟩ := app_exists (ops := varyOps dropsVaryH) (opts := shopOpts) (req := cartPre (putJson b!"https://a.example" true)) (k := 1)
    (by decide +kernel)
  obtain ⟨b, h, hm⟩ := sent_exists (cart_sent he (req := cartReq (putJson b!"https://a.example" true)) (c := 200) (by decide +kernel))
  refine ⟨e, he, b, h, hm, ⟨rfl, ⟨rfl, rfl⟩, ?_⟩, ⟨rfl, [b!"https://a.example"], [], rfl, by decide⟩, ?_⟩
  · rintro n ⟨v, hv, -⟩
    rw [cart_header he (x := none) (c := 200) (by decide +kernel) hm] at hv
    cases hv
  · rintro ⟨v, hv, h2⟩
    rw [fieldOf_one (cart_header he (x := some [b!"https://a.example"]) (c := 200) (by decide +kernel) hm)] at hv
    cases hv
    rcases h2 with h2 | h2
    · exact absurd h2.2 (by decide)
    · exact absurd h2.1 (by decide)

end Water
